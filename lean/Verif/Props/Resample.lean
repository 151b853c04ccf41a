import Verif.Model.Resample
import Verif.Props.CO
import Verif.Props.Select
import Mathlib.Tactic.Ring
import Mathlib.Tactic.Linarith
/-!
C76: resampling delivers a regular series, each value computed from the readings of its bin or carried over a gap no longer
than `max_sample_period`.
-/
namespace Nilmtk

/-! ### Forward fill -/

/-- Specification: value `v` at position `i` is that of the last reading at or before `i`, at most `limit` positions back. -/
def Carried (limit : Option Nat) (xs : CorChunk) (i : Nat) (v : Rat) : Prop :=
  ∃ j t, j ≤ i ∧ xs[j]? = some (t, some v) ∧ (∀ k, j < k → k ≤ i → ∃ u, xs[k]? = some (u, none)) ∧
    ∀ l, limit = some l → i - j ≤ l

theorem ffill_times (limit : Option Nat) (prev : Option Rat) (run : Nat) (xs : CorChunk) :
    (ffillFrom limit prev run xs).map Prod.fst = xs.map Prod.fst := by
  induction xs generalizing prev run with
  | nil => rfl
  | cons p xs ih =>
    obtain ⟨t, _ | v⟩ := p <;> simp [ffillFrom, ih]

theorem ffill_get (limit : Option Nat) (prev : Option Rat) (run : Nat) (xs : CorChunk) (i : Nat) (t : Int) (v : Rat) :
    (ffillFrom limit prev run xs)[i]? = some (t, some v) ↔
      (xs.map Prod.fst)[i]? = some t ∧ (Carried limit xs i v ∨
        ((∀ k, k ≤ i → ∃ u, xs[k]? = some (u, none)) ∧ prev = some v ∧ ∀ l, limit = some l → run + i + 1 ≤ l)) := by
  induction xs generalizing prev run i with
  | nil => simp [ffillFrom]
  | cons p xs ih =>
    obtain ⟨u, x⟩ := p
    cases i with
    | zero =>
      cases x with
      | some w =>
        simp only [ffillFrom, List.getElem?_cons_zero, List.map_cons, Option.some.injEq, Prod.mk.injEq]
        constructor
        · rintro ⟨rfl, rfl⟩
          exact ⟨rfl, Or.inl ⟨0, u, le_refl _, rfl, by omega, by simp⟩⟩
        · rintro ⟨rfl, ⟨j, t', h1, h2, _⟩ | ⟨h1, _⟩⟩
          · have : j = 0 := by omega
            subst this
            simp at h2; exact ⟨rfl, h2.2⟩
          · obtain ⟨_, h⟩ := h1 0 (le_refl _); simp at h
      | none =>
        simp only [ffillFrom, List.getElem?_cons_zero, List.map_cons, Option.some.injEq, Prod.mk.injEq]
        have hc : ¬ Carried limit ((u, none) :: xs) 0 v := by
          rintro ⟨j, t', h1, h2, _⟩
          have : j = 0 := by omega
          subst this; simp at h2
        have hk : ∀ k, k ≤ 0 → ∃ u', ((u, none) :: xs : CorChunk)[k]? = some (u', none) := by
          intro k h; have : k = 0 := by omega
          subst this; exact ⟨u, rfl⟩
        constructor
        · rintro ⟨rfl, h⟩
          refine ⟨rfl, Or.inr ⟨hk, ?_⟩⟩
          cases limit with
          | none => exact ⟨h, by simp⟩
          | some l =>
            simp only at h
            split at h
            · exact ⟨h, by simp; omega⟩
            · simp at h
        · rintro ⟨rfl, h | ⟨_, h1, h2⟩⟩
          · exact absurd h hc
          · refine ⟨rfl, ?_⟩
            cases limit with
            | none => exact h1
            | some l =>
              have := h2 l rfl
              simp only
              rw [if_pos (by omega)]; exact h1
    | succ i =>
      have hcar : Carried limit xs i v ∨ ((∀ k, k ≤ i → ∃ u, xs[k]? = some (u, none)) ∧ x = some v ∧
            ∀ l, limit = some l → i + 1 ≤ l) ↔ Carried limit ((u, x) :: xs) (i + 1) v := by
        constructor
        · rintro (⟨j, t', h1, h2, h3, h4⟩ | ⟨h1, rfl, h2⟩)
          · refine ⟨j + 1, t', by omega, by simpa using h2, ?_, ?_⟩
            · intro k hk1 hk2
              obtain ⟨k, rfl⟩ : ∃ k', k = k' + 1 := ⟨k - 1, by omega⟩
              simpa using h3 k (by omega) (by omega)
            · intro l hl; have := h4 l hl; omega
          · refine ⟨0, u, by omega, rfl, ?_, ?_⟩
            · intro k hk1 hk2
              obtain ⟨k, rfl⟩ : ∃ k', k = k' + 1 := ⟨k - 1, by omega⟩
              simpa using h1 k (by omega)
            · intro l hl; have := h2 l hl; omega
        · rintro ⟨j, t', h1, h2, h3, h4⟩
          cases j with
          | zero =>
            right
            simp at h2
            refine ⟨?_, h2.2, ?_⟩
            · intro k hk; simpa using h3 (k + 1) (by omega) (by omega)
            · intro l hl; have := h4 l hl; omega
          | succ j =>
            left
            refine ⟨j, t', by omega, by simpa using h2, ?_, ?_⟩
            · intro k hk1 hk2; simpa using h3 (k + 1) (by omega) (by omega)
            · intro l hl; have := h4 l hl; omega
      cases x with
      | some w =>
        simp only [ffillFrom, List.getElem?_cons_succ, List.map_cons]
        rw [ih, ← hcar]
        simp only [Nat.zero_add]
        constructor
        · rintro ⟨h1, h2⟩; exact ⟨h1, Or.inl h2⟩
        · rintro ⟨h1, h2 | ⟨h2, _⟩⟩
          · exact ⟨h1, h2⟩
          · obtain ⟨_, h⟩ := h2 0 (by omega); simp at h
      | none =>
        simp only [ffillFrom, List.getElem?_cons_succ, List.map_cons]
        rw [ih, ← hcar]
        constructor
        · rintro ⟨h1, h2 | ⟨h2, h3, h4⟩⟩
          · exact ⟨h1, Or.inl (Or.inl h2)⟩
          · refine ⟨h1, Or.inr ⟨?_, h3, fun l hl => by have := h4 l hl; omega⟩⟩
            intro k hk
            cases k with
            | zero => exact ⟨u, rfl⟩
            | succ k => simpa using h2 k (by omega)
        · rintro ⟨h1, (h2 | ⟨_, h2, _⟩) | ⟨h2, h3, h4⟩⟩
          · exact ⟨h1, Or.inl h2⟩
          · simp at h2
          · refine ⟨h1, Or.inr ⟨?_, h3, fun l hl => by have := h4 l hl; omega⟩⟩
            intro k hk; simpa using h2 (k + 1) (by omega)

/-- C76: forward fill changes no timestamp, keeps every reading, and fills a gap exactly up to the limit. -/
theorem C76_ffill (limit : Option Nat) (xs : CorChunk) :
    (ffillFrom limit none 0 xs).map Prod.fst = xs.map Prod.fst ∧
    ∀ i t v, (ffillFrom limit none 0 xs)[i]? = some (t, some v) ↔ (xs.map Prod.fst)[i]? = some t ∧ Carried limit xs i v :=
  ⟨ffill_times _ _ _ _, fun i t v => by rw [ffill_get]; simp⟩

/-! ### Rows with the same timestamp -/

theorem keepFirst_mem (seen : List Int) (rows : CorChunk) (t : Int) (x : Option Rat) :
    (t, x) ∈ keepFirst seen rows ↔ t ∉ seen ∧ rows.find? (fun p => decide (p.1 = t)) = some (t, x) := by
  induction rows generalizing seen with
  | nil => simp [keepFirst]
  | cons p rows ih =>
    obtain ⟨s, y⟩ := p
    simp only [keepFirst, List.find?_cons]
    by_cases h : s ∈ seen
    · rw [if_pos h, ih]
      by_cases e : s = t
      · subst e; simp [h]
      · simp [e]
    · rw [if_neg h, List.mem_cons, ih]
      by_cases e : s = t
      · subst e
        simp only [List.mem_cons, true_or, not_true_eq_false, false_and, or_false, Prod.mk.injEq, true_and, decide_true,
          Option.some.injEq]
        constructor
        · rintro rfl; exact ⟨h, rfl⟩
        · rintro ⟨_, h2⟩; exact h2.symm
      · have e' : t ≠ s := fun h => e h.symm
        simp [e, e']

theorem keepFirst_nodup (seen : List Int) (rows : CorChunk) :
    ((keepFirst seen rows).map Prod.fst).Nodup ∧ ∀ p ∈ keepFirst seen rows, p.1 ∉ seen := by
  induction rows generalizing seen with
  | nil => simp [keepFirst]
  | cons p rows ih =>
    simp only [keepFirst]
    split
    · exact ih seen
    · rename_i h
      obtain ⟨h1, h2⟩ := ih (p.1 :: seen)
      refine ⟨?_, ?_⟩
      · simp only [List.map_cons, List.nodup_cons]
        refine ⟨?_, h1⟩
        intro hm
        obtain ⟨q, hq, he⟩ := List.mem_map.1 hm
        exact h2 q hq (by rw [he]; simp)
      · intro q hq
        rcases List.mem_cons.1 hq with rfl | hq
        · exact h
        · exact fun hs => h2 q hq (List.mem_cons_of_mem _ hs)

theorem keepFirst_id (seen : List Int) (rows : CorChunk) (h : (rows.map Prod.fst).Nodup) (hs : ∀ p ∈ rows, p.1 ∉ seen) :
    keepFirst seen rows = rows := by
  induction rows generalizing seen with
  | nil => rfl
  | cons p rows ih =>
    simp only [List.map_cons, List.nodup_cons] at h
    rw [keepFirst, if_neg (hs p (List.mem_cons_self ..)), ih _ h.2]
    intro q hq
    rw [List.mem_cons]
    push Not
    refine ⟨fun e => h.1 (e ▸ List.mem_map_of_mem hq), hs q (List.mem_cons_of_mem _ hq)⟩

theorem keepFirst_sublist (seen : List Int) (rows : CorChunk) : (keepFirst seen rows).Sublist rows := by
  induction rows generalizing seen with
  | nil => simp [keepFirst]
  | cons p rows ih =>
    simp only [keepFirst]
    split
    · exact (ih seen).cons p
    · exact (ih _).cons_cons p

/-- C76: of rows with the same timestamp the first is used: resampling is that of a part of the rows without repeated
timestamps, which has the first row of each timestamp. -/
theorem C76_duplicates (rows : CorChunk) :
    ∃ rows' : CorChunk, rows'.Sublist rows ∧ (rows'.map Prod.fst).Nodup ∧
      (∀ t x, (t, x) ∈ rows' ↔ rows.find? (fun p => decide (p.1 = t)) = some (t, x)) ∧
      ∀ ambiguous n how fill limit, safeResample ambiguous n how fill limit rows = safeResample ambiguous n how fill limit rows' := by
  refine ⟨keepFirst [] rows, keepFirst_sublist _ _, (keepFirst_nodup _ _).1, fun t x => by simp [keepFirst_mem], ?_⟩
  intro ambiguous n how fill limit
  have e : keepFirst [] (keepFirst [] rows) = keepFirst [] rows := keepFirst_id _ _ (keepFirst_nodup _ _).1 (by simp)
  unfold safeResample
  rw [e]
  cases rows with
  | nil => rfl
  | cons p rows => simp [keepFirst]

/-! ### Bins -/

/-- Specification: the readings (not NaN) with timestamp in `[a, b)`. -/
def binValues (rows : CorChunk) (a b : Int) : List Rat :=
  (rows.filter (fun p => decide (a ≤ p.1) && decide (p.1 < b))).filterMap Prod.snd

/-- Specification: `v` is the mean, maximum or minimum of the readings, of which there is at least one. -/
def IsAgg (how : How) (l : List Rat) (v : Rat) : Prop :=
  l ≠ [] ∧ match how with
    | .mean => v * (l.length : Nat) = l.sum
    | .max => v ∈ l ∧ ∀ x ∈ l, x ≤ v
    | .min => v ∈ l ∧ ∀ x ∈ l, v ≤ x

theorem binReadings_eq (rows : CorChunk) (a b : Int) : binReadings rows a b = binValues rows a b := by
  induction rows with
  | nil => rfl
  | cons p rows ih =>
    simp only [binReadings, binValues] at ih ⊢
    rw [List.filterMap_cons, List.filter_cons]
    by_cases h : a ≤ p.1 ∧ p.1 < b
    · rw [if_pos h, if_pos (by simpa using h), List.filterMap_cons, ih]
    · rw [if_neg h, if_neg (by simpa using h), ih]

theorem foldl_max_spec (x : Rat) (l : List Rat) :
    l.foldl Max.max x ∈ x :: l ∧ ∀ y ∈ x :: l, y ≤ l.foldl Max.max x := by
  induction l generalizing x with
  | nil => simp
  | cons a l ih =>
    obtain ⟨h1, h2⟩ := ih (Max.max x a)
    rw [List.foldl_cons]
    refine ⟨?_, ?_⟩
    · rcases List.mem_cons.1 h1 with h | h
      · rw [h]; rcases max_choice x a with e | e <;> rw [e] <;> simp
      · simp [h]
    · intro y hy
      have := h2 _ (List.mem_cons_self ..)
      rcases List.mem_cons.1 hy with rfl | hy
      · exact le_trans (le_max_left _ _) this
      · rcases List.mem_cons.1 hy with rfl | hy
        · exact le_trans (le_max_right _ _) this
        · exact h2 y (List.mem_cons_of_mem _ hy)

theorem foldl_min_spec (x : Rat) (l : List Rat) :
    l.foldl Min.min x ∈ x :: l ∧ ∀ y ∈ x :: l, l.foldl Min.min x ≤ y := by
  induction l generalizing x with
  | nil => simp
  | cons a l ih =>
    obtain ⟨h1, h2⟩ := ih (Min.min x a)
    rw [List.foldl_cons]
    refine ⟨?_, ?_⟩
    · rcases List.mem_cons.1 h1 with h | h
      · rw [h]; rcases min_choice x a with e | e <;> rw [e] <;> simp
      · simp [h]
    · intro y hy
      have := h2 _ (List.mem_cons_self ..)
      rcases List.mem_cons.1 hy with rfl | hy
      · exact le_trans this (min_le_left _ _)
      · rcases List.mem_cons.1 hy with rfl | hy
        · exact le_trans this (min_le_right _ _)
        · exact h2 y (List.mem_cons_of_mem _ hy)

theorem agg_iff (how : How) (l : List Rat) (v : Rat) : how.agg l = some v ↔ IsAgg how l v := by
  cases l with
  | nil => cases how <;> simp [How.agg, IsAgg]
  | cons x l =>
    cases how with
    | mean =>
      have hpos : (((x :: l).length : Nat) : Rat) ≠ 0 := by simp; positivity
      simp only [How.agg, IsAgg, Option.some.injEq]
      rw [div_eq_iff hpos]
      exact ⟨fun h => ⟨by simp, h.symm⟩, fun h => h.2.symm⟩
    | max =>
      simp only [How.agg, IsAgg, Option.some.injEq]
      obtain ⟨h1, h2⟩ := foldl_max_spec x l
      constructor
      · rintro rfl; exact ⟨by simp, h1, h2⟩
      · rintro ⟨_, h3, h4⟩; exact le_antisymm (h4 _ h1) (h2 _ h3)
    | min =>
      simp only [How.agg, IsAgg, Option.some.injEq]
      obtain ⟨h1, h2⟩ := foldl_min_spec x l
      constructor
      · rintro rfl; exact ⟨by simp, h1, h2⟩
      · rintro ⟨_, h3, h4⟩; exact le_antisymm (h2 _ h3) (h4 _ h1)

theorem agg_none (how : How) (l : List Rat) : how.agg l = none ↔ l = [] := by
  cases l <;> cases how <;> simp [How.agg]

/-- Specification: no reading (other than NaN) with timestamp in `[a, b)`. -/
def NoReading (rows : CorChunk) (a b : Int) : Prop := ∀ p ∈ rows, a ≤ p.1 → p.1 < b → p.2 = none

theorem binValues_nil (rows : CorChunk) (a b : Int) : binValues rows a b = [] ↔ NoReading rows a b := by
  unfold binValues NoReading
  rw [List.filterMap_eq_nil_iff]
  constructor
  · intro h p hp h1 h2; exact h p (List.mem_filter.2 ⟨hp, by simp [h1, h2]⟩)
  · intro h p hp
    have := List.mem_filter.1 hp
    simp at this
    exact h p this.1 this.2.1 this.2.2

theorem minTime_spec (p : Int × Option Rat) (rows : CorChunk) :
    (∃ q ∈ p :: rows, q.1 = minTime p.1 rows) ∧ ∀ q ∈ p :: rows, minTime p.1 rows ≤ q.1 := by
  unfold minTime
  induction rows generalizing p with
  | nil => simp
  | cons a rows ih =>
    obtain ⟨⟨q, hq, h1⟩, h2⟩ := ih (min p.1 a.1, none)
    simp only [List.foldl_cons] at h1 h2 ⊢
    refine ⟨?_, ?_⟩
    · rcases List.mem_cons.1 hq with rfl | hq
      · rw [← h1]
        rcases min_choice p.1 a.1 with e | e
        · exact ⟨p, by simp, e.symm⟩
        · exact ⟨a, by simp, e.symm⟩
      · exact ⟨q, by simp [hq], h1⟩
    · intro q hq
      have h3 := h2 _ (List.mem_cons_self ..)
      simp only at h3
      rcases List.mem_cons.1 hq with rfl | hq
      · exact le_trans h3 (min_le_left _ _)
      · rcases List.mem_cons.1 hq with rfl | hq
        · exact le_trans h3 (min_le_right _ _)
        · exact h2 q (List.mem_cons_of_mem _ hq)

theorem maxTime_spec (p : Int × Option Rat) (rows : CorChunk) :
    (∃ q ∈ p :: rows, q.1 = maxTime p.1 rows) ∧ ∀ q ∈ p :: rows, q.1 ≤ maxTime p.1 rows := by
  unfold maxTime
  induction rows generalizing p with
  | nil => simp
  | cons a rows ih =>
    obtain ⟨⟨q, hq, h1⟩, h2⟩ := ih (max p.1 a.1, none)
    simp only [List.foldl_cons] at h1 h2 ⊢
    refine ⟨?_, ?_⟩
    · rcases List.mem_cons.1 hq with rfl | hq
      · rw [← h1]
        rcases max_choice p.1 a.1 with e | e
        · exact ⟨p, by simp, e.symm⟩
        · exact ⟨a, by simp, e.symm⟩
      · exact ⟨q, by simp [hq], h1⟩
    · intro q hq
      have h3 := h2 _ (List.mem_cons_self ..)
      simp only at h3
      rcases List.mem_cons.1 hq with rfl | hq
      · exact le_trans (le_max_left _ _) h3
      · rcases List.mem_cons.1 hq with rfl | hq
        · exact le_trans (le_max_right _ _) h3
        · exact h2 q (List.mem_cons_of_mem _ hq)

/-- Specification: a day, in nanoseconds. -/
def wholeDay : Int := 86400000000000

/-- Specification: `index` is the regular list of timestamps, `n` apart, counted from the midnight before the first row, from
the bin of the first row to the bin of the last. -/
structure RegularIndex (n : Int) (rows : CorChunk) (index : List Int) : Prop where
  regular : ∃ (start : Int) (k : Nat), index = (List.range k).map (fun i : Nat => start + i * n) ∧
    (∀ p ∈ rows, start ≤ p.1 ∧ p.1 < start + k * n) ∧ (∃ p ∈ rows, p.1 < start + n) ∧
    (∃ p ∈ rows, start + (k - 1) * n ≤ p.1) ∧
    ∃ p ∈ rows, (∀ q ∈ rows, p.1 ≤ q.1) ∧ ∃ midnight, wholeDay ∣ midnight ∧ midnight ≤ p.1 ∧ p.1 < midnight + wholeDay ∧
      n ∣ start - midnight

theorem bins_regular (n : Int) (hn : 0 < n) (how : How) (p : Int × Option Rat) (rest : CorChunk) :
    RegularIndex n (p :: rest)
      ((resampleBins n how (minTime p.1 rest) (maxTime p.1 rest) (p :: rest)).map Prod.fst) := by
  obtain ⟨⟨q, hq, hq1⟩, hmin⟩ := minTime_spec p rest
  obtain ⟨⟨r, hr, hr1⟩, hmax⟩ := maxTime_spec p rest
  generalize minTime p.1 rest = first at *
  generalize maxTime p.1 rest = last at *
  have hb0 : 0 ≤ (first % dayNs) % n := Int.emod_nonneg _ (by omega)
  have hb1 : (first % dayNs) % n < n := Int.emod_lt_of_pos _ hn
  have hfl : first ≤ last := by rw [← hq1]; exact hmax q hq
  have hs : binStart n first = first - (first % dayNs) % n := rfl
  have hk0 : 0 ≤ (last - binStart n first) / n := Int.ediv_nonneg (by omega) (by omega)
  have hk : (((last - binStart n first) / n + 1).toNat : Int) = (last - binStart n first) / n + 1 := by omega
  have hd := Int.emod_add_mul_ediv (last - binStart n first) n
  have hm0 := Int.emod_nonneg (last - binStart n first) (b := n) (by omega)
  have hm1 := Int.emod_lt_of_pos (last - binStart n first) hn
  refine ⟨binStart n first, ((last - binStart n first) / n + 1).toNat, ?_, ?_, ⟨q, hq, ?_⟩, ⟨r, hr, ?_⟩, q, hq, ?_, ?_⟩
  · simp [resampleBins, List.map_map, Function.comp_def]
  · intro x hx
    have h1 := hmin x hx
    have h2 := hmax x hx
    rw [hk]
    refine ⟨by omega, ?_⟩
    have : ((last - binStart n first) / n + 1) * n = n * ((last - binStart n first) / n) + n := by ring
    rw [this]; omega
  · omega
  · rw [hk]
    have : ((last - binStart n first) / n + 1 - 1) * n = n * ((last - binStart n first) / n) := by ring
    rw [this]; omega
  · intro x hx; rw [hq1]; exact hmin x hx
  · have hwd : wholeDay = dayNs := by decide
    rw [hwd]
    have hday : (0 : Int) < dayNs := by decide
    have e1 := Int.emod_add_mul_ediv first dayNs
    have e2 := Int.emod_nonneg first (b := dayNs) (by omega)
    have e3 := Int.emod_lt_of_pos first hday
    refine ⟨dayNs * (first / dayNs), Dvd.intro _ rfl, by omega, by omega, ?_⟩
    have e4 := Int.emod_add_mul_ediv (first % dayNs) n
    exact ⟨(first % dayNs) / n, by omega⟩

theorem safeResample_eq (n : Int) (hn : 0 < n) (how : How) (fill : FillMethod) (limit : Option Nat)
    (p : Int × Option Rat) (rest : CorChunk) (hd : ((p :: rest).map Prod.fst).Nodup) :
    safeResample false n how fill limit (p :: rest) =
      fillGaps fill limit (resampleBins n how (minTime p.1 rest) (maxTime p.1 rest) (p :: rest)) := by
  unfold safeResample
  rw [keepFirst_id _ _ hd (by simp)]
  simp only [Bool.false_eq_true, if_false, resampleChain]
  rw [if_neg (by omega)]

/-- C76: a chunk that is not empty is resampled to a regular index that covers it, unless the limit is 0. -/
theorem C76_grid (n : Int) (hn : 0 < n) (how : How) (fill : FillMethod) (limit : Option Nat) (hl : limit ≠ some 0)
    (rows : CorChunk) (hne : rows ≠ []) (hd : (rows.map Prod.fst).Nodup) :
    ∃ out, safeResample false n how fill limit rows = .ok out ∧ RegularIndex n rows (out.map Prod.fst) := by
  cases rows with
  | nil => exact absurd rfl hne
  | cons p rest =>
    rw [safeResample_eq n hn how fill limit p rest hd]
    cases fill with
    | none => exact ⟨_, rfl, bins_regular n hn how p rest⟩
    | ffill =>
      simp only [fillGaps, if_neg hl]
      exact ⟨_, rfl, by rw [ffill_times]; exact bins_regular n hn how p rest⟩

/-- C76: a rule that is not positive is refused with `ValueError`, for every chunk that is not empty; an empty chunk comes back as
it is, whatever the rule. -/
theorem C76_rule (n : Int) (how : How) (fill : FillMethod) (limit : Option Nat) (rows : CorChunk) :
    (n ≤ 0 → rows ≠ [] → safeResample false n how fill limit rows = .error .valueError) ∧
    (∀ ambiguous, safeResample ambiguous n how fill limit [] = .ok []) := by
  refine ⟨fun hn hne => ?_, fun _ => rfl⟩
  obtain ⟨p, rest, rfl⟩ := List.exists_cons_of_ne_nil hne
  unfold safeResample
  simp [keepFirst, resampleChain, hn]

/-- C76: without filling, the value of a bin is the aggregate of the readings in it, missing when there are none. -/
theorem C76_value (n : Int) (hn : 0 < n) (how : How) (limit : Option Nat) (rows out : CorChunk) (hne : rows ≠ [])
    (hd : (rows.map Prod.fst).Nodup) (h : safeResample false n how .none limit rows = .ok out) (t : Int) (v : Rat) :
    ((t, some v) ∈ out ↔ t ∈ out.map Prod.fst ∧ IsAgg how (binValues rows t (t + n)) v) ∧
    ((t, none) ∈ out ↔ t ∈ out.map Prod.fst ∧ NoReading rows t (t + n)) := by
  cases rows with
  | nil => exact absurd rfl hne
  | cons p rest =>
    rw [safeResample_eq n hn how _ limit p rest hd] at h
    simp only [fillGaps, Except.ok.injEq] at h
    subst h
    have hmem : ∀ x : Option Rat, (t, x) ∈ resampleBins n how (minTime p.1 rest) (maxTime p.1 rest) (p :: rest) ↔
        t ∈ (resampleBins n how (minTime p.1 rest) (maxTime p.1 rest) (p :: rest)).map Prod.fst ∧
          x = how.agg (binValues (p :: rest) t (t + n)) := by
      intro x
      simp only [resampleBins, List.mem_map, List.map_map, Function.comp_def, Prod.mk.injEq, binReadings_eq]
      constructor
      · rintro ⟨i, hi, rfl, rfl⟩; exact ⟨⟨i, hi, rfl⟩, rfl⟩
      · rintro ⟨⟨i, hi, rfl⟩, rfl⟩; exact ⟨i, hi, rfl, rfl⟩
    rw [hmem, hmem, eq_comm, agg_iff, eq_comm (a := none), agg_none, binValues_nil]
    exact ⟨Iff.rfl, Iff.rfl⟩

/-- C76: with forward fill, the value at `t` is that of the last bin with a reading at or before `t`, if it is at most
`limit` bins before. -/
theorem C76_filled (n : Int) (hn : 0 < n) (how : How) (limit : Option Nat) (rows out : CorChunk) (hne : rows ≠ [])
    (hd : (rows.map Prod.fst).Nodup) (h : safeResample false n how .ffill limit rows = .ok out) (t : Int) (v : Rat) :
    (t, some v) ∈ out ↔ t ∈ out.map Prod.fst ∧ ∃ s ∈ out.map Prod.fst, s ≤ t ∧
      IsAgg how (binValues rows s (s + n)) v ∧ NoReading rows (s + n) (t + n) ∧ ∀ l, limit = some l → t - s ≤ l * n := by
  cases rows with
  | nil => exact absurd rfl hne
  | cons p rest =>
    rw [safeResample_eq n hn how _ limit p rest hd] at h
    simp only [fillGaps] at h
    split at h
    · simp at h
    simp only [Except.ok.injEq] at h
    subst h
    rw [ffill_times]
    generalize hbins : resampleBins n how (minTime p.1 rest) (maxTime p.1 rest) (p :: rest) = bins
    generalize hrows : p :: rest = rows at *
    obtain ⟨start, k, hget, hlen⟩ : ∃ (start : Int) (k : Nat), (∀ i, i < k →
        bins[i]? = some (start + i * n, how.agg (binValues rows (start + i * n) (start + i * n + n)))) ∧ bins.length = k := by
      refine ⟨binStart n (minTime p.1 rest), _, ?_, by rw [← hbins, resampleBins, List.length_map, List.length_range]⟩
      intro i hi
      rw [← hbins, resampleBins, List.getElem?_map, List.getElem?_range hi]
      simp [binReadings_eq]
    have hidx : ∀ u, u ∈ bins.map Prod.fst ↔ ∃ i < k, u = start + i * n := by
      intro u
      rw [List.mem_map]
      constructor
      · rintro ⟨q, hq, rfl⟩
        obtain ⟨i, hi⟩ := List.mem_iff_getElem?.1 hq
        have hik : i < k := by
          rw [← hlen]; exact (List.getElem?_eq_some_iff.1 hi).1
        rw [hget i hik] at hi
        simp at hi
        exact ⟨i, hik, by rw [← hi]⟩
      · rintro ⟨i, hi, rfl⟩
        exact ⟨_, List.mem_iff_getElem?.2 ⟨i, hget i hi⟩, rfl⟩
    have hlt : ∀ i x, bins[i]? = some x → i < k := fun i x hx => by
      rw [← hlen]; exact (List.getElem?_eq_some_iff.1 hx).1
    have hsome : ∀ i u w, bins[i]? = some (u, some w) ↔
        i < k ∧ u = start + i * n ∧ IsAgg how (binValues rows u (u + n)) w := by
      intro i u w
      constructor
      · intro hx
        have hi := hlt _ _ hx
        rw [hget i hi] at hx
        simp only [Option.some.injEq, Prod.mk.injEq] at hx
        obtain ⟨h1, h2⟩ := hx
        rw [agg_iff] at h2
        exact ⟨hi, h1.symm, h1 ▸ h2⟩
      · rintro ⟨hi, rfl, h2⟩
        rw [hget i hi, (agg_iff _ _ _).2 h2]
    have hnone : ∀ i u, bins[i]? = some (u, none) ↔ i < k ∧ u = start + i * n ∧ NoReading rows u (u + n) := by
      intro i u
      constructor
      · intro hx
        have hi := hlt _ _ hx
        rw [hget i hi] at hx
        simp only [Option.some.injEq, Prod.mk.injEq] at hx
        obtain ⟨h1, h2⟩ := hx
        rw [agg_none, binValues_nil] at h2
        exact ⟨hi, h1.symm, h1 ▸ h2⟩
      · rintro ⟨hi, rfl, h2⟩
        rw [hget i hi, (agg_none _ _).2 ((binValues_nil _ _ _).2 h2)]
    have hmul : ∀ i j : Nat, i ≤ j → (j : Int) * n = i * n + ((j - i : Nat) : Int) * n := by
      intro i j hij
      rw [← Int.add_mul]; congr 1; omega
    constructor
    · intro hm
      obtain ⟨i, hi⟩ := List.mem_iff_getElem?.1 hm
      rw [(C76_ffill limit bins).2 i t v] at hi
      obtain ⟨h1, j, u, hji, h2, h3, h4⟩ := hi
      have hti : i < k ∧ t = start + i * n := by
        rw [List.getElem?_map] at h1
        cases hb : bins[i]? with
        | none => rw [hb] at h1; simp at h1
        | some x =>
          have hik := hlt _ _ hb
          rw [hget i hik] at hb
          simp only [Option.some.injEq] at hb
          rw [hget i hik] at h1
          simp at h1
          exact ⟨hik, h1.symm⟩
      obtain ⟨hj, hu, h5⟩ := (hsome _ _ _).1 h2
      refine ⟨(hidx t).2 ⟨i, hti.1, hti.2⟩, u, (hidx u).2 ⟨j, hj, hu⟩, ?_, h5, ?_, ?_⟩
      · rw [hti.2, hu, hmul j i hji]
        have : 0 ≤ ((i - j : Nat) : Int) * n := by positivity
        omega
      · intro q hq hq1 hq2
        -- the bin of q
        have hdiv := Int.emod_add_mul_ediv (q.1 - start) n
        have hm0 := Int.emod_nonneg (q.1 - start) (b := n) (by omega)
        have hm1 := Int.emod_lt_of_pos (q.1 - start) hn
        have hc0 : (j : Int) + 1 ≤ (q.1 - start) / n := by
          rw [Int.le_ediv_iff_mul_le hn]
          rw [hu] at hq1
          have : ((j : Int) + 1) * n = j * n + n := by ring
          omega
        have hc1 : (q.1 - start) / n < (i : Int) + 1 := by
          rw [Int.ediv_lt_iff_lt_mul hn]
          rw [hti.2] at hq2
          have : ((i : Int) + 1) * n = i * n + n := by ring
          omega
        obtain ⟨c, hc⟩ : ∃ c : Nat, (q.1 - start) / n = c := ⟨((q.1 - start) / n).toNat, by omega⟩
        obtain ⟨w, hw⟩ := h3 c (by omega) (by omega)
        obtain ⟨_, h6, h7⟩ := (hnone _ _).1 hw
        have hcn : n * (c : Int) = c * n := by ring
        rw [hc, hcn] at hdiv
        exact h7 q hq (by omega) (by omega)
      · intro l hl
        have h6 := h4 l hl
        rw [hti.2, hu, hmul j i hji]
        have : ((i - j : Nat) : Int) * n ≤ l * n := by
          apply Int.mul_le_mul_of_nonneg_right _ (by omega)
          exact_mod_cast h6
        omega
    · rintro ⟨ht, s, hs, hst, h2, h3, h4⟩
      obtain ⟨i, hi, rfl⟩ := (hidx t).1 ht
      obtain ⟨j, hj, rfl⟩ := (hidx s).1 hs
      have hji : j ≤ i := by
        by_contra hcon
        have := hmul i j (by omega)
        have h5 : n ≤ ((j - i : Nat) : Int) * n := by
          have : (1 : Int) * n ≤ ((j - i : Nat) : Int) * n :=
            Int.mul_le_mul_of_nonneg_right (by omega) (by omega)
          omega
        omega
      rw [List.mem_iff_getElem?]
      refine ⟨i, ((C76_ffill limit bins).2 i _ v).2 ⟨?_, j, _, hji, (hsome _ _ _).2 ⟨hj, rfl, h2⟩, ?_, ?_⟩⟩
      · rw [List.getElem?_map, hget i hi]; rfl
      · intro c hc1 hc2
        refine ⟨_, (hnone c _).2 ⟨by omega, rfl, ?_⟩⟩
        intro q hq hq1 hq2
        have e1 := hmul (j + 1) c (by omega)
        have e2 := hmul c i (by omega)
        have p1 : 0 ≤ ((c - (j + 1) : Nat) : Int) * n := by positivity
        have p2 : 0 ≤ ((i - c : Nat) : Int) * n := by positivity
        have e3 : ((j + 1 : Nat) : Int) * n = j * n + n := by push_cast; ring
        exact h3 q hq (by omega) (by omega)
      · intro l hl
        have h5 := h4 l hl
        rw [hmul j i hji] at h5
        have h6 : ((i - j : Nat) : Int) * n ≤ l * n := by omega
        have := Int.le_of_mul_le_mul_right h6 hn
        exact_mod_cast this

/-! ### load -/

/-- `load(sample_period=sp)`: one column of one chunk. -/
def loadAt (d : Device) (sp : Rat) (rows : CorChunk) : Except Err (CorChunk × ResampleKw) :=
  loadColumn false d ⟨some sp, none, ⟨none, none, none⟩⟩ rows

/-- C76: what `load(sample_period=sp)` does by default: mean, forward fill, at most ⌈max_sample_period / sp⌉ bins. -/
theorem C76_default (d : Device) (sp : Rat) (hsp : 0 < sp) (hM : 0 < d.maxSamplePeriod) (rows : CorChunk) :
    loadAt d sp rows = (safeResample false (roundEven sp * 1000000000) .mean .ffill (some ⌈d.maxSamplePeriod / sp⌉.toNat) rows).map
      (fun out => (out, ⟨some .mean, some .ffill, some (some ⌈d.maxSamplePeriod / sp⌉.toNat)⟩)) := by
  have h : ¬ ⌈d.maxSamplePeriod / sp⌉ < 0 := by
    have : 0 < ⌈d.maxSamplePeriod / sp⌉ := Int.ceil_pos.2 (by positivity)
    omega
  simp only [loadAt, loadColumn, LoadKw.on, Option.isSome_some, if_true, fillDefaults, Option.getD_some, Option.getD_none,
    if_neg (ne_of_gt hsp), if_neg h, LoadKw.rule]
  cases safeResample false (roundEven sp * 1000000000) How.mean FillMethod.ffill (some ⌈d.maxSamplePeriod / sp⌉.toNat) rows <;> rfl

theorem agg_exists (how : How) (l : List Rat) (h : l ≠ []) : ∃ v, IsAgg how l v := by
  cases hv : how.agg l with
  | none => exact absurd ((agg_none how l).1 hv) h
  | some v => exact ⟨v, (agg_iff how l v).1 hv⟩

theorem binValues_ne_nil (rows : CorChunk) (a b : Int) (h : binValues rows a b ≠ []) :
    ∃ r ∈ rows, r.2 ≠ none ∧ a ≤ r.1 ∧ r.1 < b := by
  by_contra hcon
  push Not at hcon
  apply h
  rw [binValues_nil]
  intro p hp h1 h2
  by_contra h3
  have := hcon p hp h3 h1
  omega

theorem limit_bound (M : Rat) (m : Nat) (hm : 0 < m) (x : Nat) (h : (x : Rat) * m < M + m) : x ≤ ⌈M / (m : Rat)⌉.toNat := by
  have hm' : (0 : Rat) < m := by exact_mod_cast hm
  have h1 : (x : Rat) - 1 < M / m := by rw [lt_div_iff₀ hm']; linarith
  have h2 : (x : Int) ≤ ⌈M / (m : Rat)⌉ := by
    rw [Int.le_ceil_iff]; push_cast; exact h1
  omega

theorem roundEven_nat (m : Nat) : roundEven (m : Rat) = m := by
  simp [roundEven]

/-- Specification: there is no gap longer than `M` seconds: at any instant between the first and the last row, the last reading
is at most `M` seconds ago. -/
def NoLongGap (M : Rat) (rows : CorChunk) : Prop :=
  ∀ u : Int, (∃ p ∈ rows, p.1 ≤ u) → (∃ q ∈ rows, u ≤ q.1) →
    ∃ r ∈ rows, r.2 ≠ none ∧ r.1 ≤ u ∧ ((u - r.1 : Int) : Rat) ≤ M * 1000000000

theorem regular_nodup (n : Int) (hn : 0 < n) (rows : CorChunk) (index : List Int) (h : RegularIndex n rows index) :
    index.Nodup := by
  obtain ⟨start, k, rfl, _⟩ := h.regular
  refine List.Nodup.map ?_ List.nodup_range
  intro a b hab
  simp only at hab
  have : (a : Int) * n = b * n := by omega
  have := Int.eq_of_mul_eq_mul_right (by omega) this
  exact_mod_cast this

theorem eq_of_nodup_fst (out : CorChunk) (h : (out.map Prod.fst).Nodup) (t : Int) (x y : Option Rat) (hx : (t, x) ∈ out)
    (hy : (t, y) ∈ out) : x = y := by
  have := List.inj_on_of_nodup_map h hx hy rfl
  simpa using this

/-- C76: when no gap is longer than `max_sample_period`, `load(sample_period=m)` has no missing reading, for a whole number of
seconds `m`. -/
theorem C76_gap_partial (d : Device) (hM : 0 < d.maxSamplePeriod) (m : Nat) (hm : 0 < m) (rows : CorChunk) (hne : rows ≠ [])
    (hd : (rows.map Prod.fst).Nodup) (hgap : NoLongGap d.maxSamplePeriod rows) :
    ∃ out kw, loadAt d m rows = .ok (out, kw) ∧ RegularIndex (m * 1000000000) rows (out.map Prod.fst) ∧
      ∀ p ∈ out, p.2 ≠ none := by
  have hm' : (0 : Rat) < m := by exact_mod_cast hm
  rw [C76_default d m hm' hM, roundEven_nat]
  generalize hN : (m : Int) * 1000000000 = n
  have hn : 0 < n := by omega
  have hL0 : 0 < ⌈d.maxSamplePeriod / (m : Rat)⌉ := Int.ceil_pos.2 (by positivity)
  obtain ⟨out, h1, h2⟩ := C76_grid n hn .mean .ffill (some ⌈d.maxSamplePeriod / (m : Rat)⌉.toNat)
    (by simp only [ne_eq, Option.some.injEq]; omega) rows hne hd
  refine ⟨out, _, by rw [h1]; rfl, h2, ?_⟩
  have hfill := C76_filled n hn .mean _ rows out hne hd h1
  rintro ⟨t, x⟩ hp hx
  simp only at hx
  subst hx
  have hnd := regular_nodup n hn rows _ h2
  obtain ⟨start, k, hidx, hcov, ⟨p0, hp0, hp0'⟩, ⟨q0, hq0, hq0'⟩, _⟩ := h2.regular
  have ht : t ∈ out.map Prod.fst := List.mem_map.2 ⟨_, hp, rfl⟩
  obtain ⟨i, hi, hti⟩ : ∃ i < k, start + (i : Int) * n = t := by
    rw [hidx] at ht; simpa using ht
  have hin : 0 ≤ (i : Int) * n := by positivity
  -- a reading not long before t
  obtain ⟨r, hr, hr1, hr2, hr3⟩ : ∃ r ∈ rows, r.2 ≠ none ∧ r.1 < t + n ∧
      ((t - r.1 : Int) : Rat) ≤ d.maxSamplePeriod * 1000000000 := by
    by_cases hc : ∃ p ∈ rows, p.1 ≤ t
    · have hq : ∃ q ∈ rows, t ≤ q.1 := by
        refine ⟨q0, hq0, ?_⟩
        have : (i : Int) * n ≤ (k - 1) * n := Int.mul_le_mul_of_nonneg_right (by omega) (by omega)
        omega
      obtain ⟨r, hr, e1, e2, e3⟩ := hgap t hc hq
      exact ⟨r, hr, e1, by omega, e3⟩
    · push Not at hc
      obtain ⟨r, hr, e1, e2, e3⟩ := hgap p0.1 ⟨p0, hp0, le_refl _⟩ ⟨p0, hp0, le_refl _⟩
      refine ⟨r, hr, e1, by omega, ?_⟩
      have : ((t - r.1 : Int) : Rat) ≤ 0 := by
        have := hc r hr
        exact_mod_cast (by omega : t - r.1 ≤ 0)
      have : 0 < d.maxSamplePeriod * 1000000000 := by positivity
      linarith
  -- its bin
  have hr4 := (hcov r hr).1
  have hdiv := Int.emod_add_mul_ediv (r.1 - start) n
  have hm0 := Int.emod_nonneg (r.1 - start) (b := n) (by omega)
  have hm1 := Int.emod_lt_of_pos (r.1 - start) hn
  have hc0 : 0 ≤ (r.1 - start) / n := Int.ediv_nonneg (by omega) (by omega)
  obtain ⟨c, hc⟩ : ∃ c : Nat, (r.1 - start) / n = c := ⟨((r.1 - start) / n).toNat, by omega⟩
  have hcn : n * (c : Int) = c * n := by ring
  rw [hc, hcn] at hdiv
  have hci : c ≤ i := by
    have : (r.1 - start) / n < (i : Int) + 1 := by
      rw [Int.ediv_lt_iff_lt_mul hn]
      have : ((i : Int) + 1) * n = i * n + n := by ring
      omega
    omega
  -- the last bin with a reading
  classical
  let P : Nat → Prop := fun j => binValues rows (start + j * n) (start + j * n + n) ≠ []
  have hPc : P c := by
    intro hnil
    rw [binValues_nil] at hnil
    exact hr1 (hnil r hr (by omega) (by omega))
  let j := Nat.findGreatest P i
  have hPj : P j := Nat.findGreatest_spec hci hPc
  have hcj : c ≤ j := Nat.le_findGreatest hci hPc
  have hji : j ≤ i := Nat.findGreatest_le i
  have hafter : ∀ b, j < b → b ≤ i → NoReading rows (start + b * n) (start + b * n + n) := by
    intro b h3 h4
    have := Nat.findGreatest_is_greatest h3 h4
    rw [← binValues_nil]
    by_contra hcon
    exact this hcon
  obtain ⟨v, hv⟩ := agg_exists .mean _ hPj
  have hmul : ∀ i j : Nat, i ≤ j → (j : Int) * n = i * n + ((j - i : Nat) : Int) * n := by
    intro i j hij
    rw [← Int.add_mul]; congr 1; omega
  have hmem : (t, some v) ∈ out := by
    rw [hfill t v]
    refine ⟨ht, start + j * n, ?_, ?_, hv, ?_, ?_⟩
    · rw [hidx]; exact List.mem_map.2 ⟨j, List.mem_range.2 (by omega), rfl⟩
    · have := hmul j i hji
      have : 0 ≤ ((i - j : Nat) : Int) * n := by positivity
      omega
    · intro q hq hq1 hq2
      have hdiv := Int.emod_add_mul_ediv (q.1 - start) n
      have hm0 := Int.emod_nonneg (q.1 - start) (b := n) (by omega)
      have hm1 := Int.emod_lt_of_pos (q.1 - start) hn
      have hb0 : (j : Int) + 1 ≤ (q.1 - start) / n := by
        rw [Int.le_ediv_iff_mul_le hn]
        have : ((j : Int) + 1) * n = j * n + n := by ring
        omega
      have hb1 : (q.1 - start) / n < (i : Int) + 1 := by
        rw [Int.ediv_lt_iff_lt_mul hn]
        have : ((i : Int) + 1) * n = i * n + n := by ring
        omega
      obtain ⟨b, hb⟩ : ∃ b : Nat, (q.1 - start) / n = b := ⟨((q.1 - start) / n).toNat, by omega⟩
      have hbn : n * (b : Int) = b * n := by ring
      rw [hb, hbn] at hdiv
      exact hafter b (by omega) (by omega) q hq (by omega) (by omega)
    · intro l hl
      simp only [Option.some.injEq] at hl
      subst hl
      have h5 : i - j ≤ ⌈d.maxSamplePeriod / (m : Rat)⌉.toNat := by
        apply limit_bound _ _ hm
        have h6 : ((i - j : Nat) : Int) * n < t - r.1 + n := by
          have e1 := hmul j i hji
          have e2 := hmul c j hcj
          have : 0 ≤ ((j - c : Nat) : Int) * n := by positivity
          omega
        have h7 : (((i - j : Nat) : Int) : Rat) * (n : Int) < ((t - r.1 : Int) : Rat) + (n : Int) := by
          exact_mod_cast h6
        have h8 : ((n : Int) : Rat) = m * 1000000000 := by rw [← hN]; push_cast; ring
        rw [h8] at h7
        have h9 : (((i - j : Nat) : Int) : Rat) = ((i - j : Nat) : Rat) := by norm_cast
        rw [h9] at h7
        nlinarith
      have := hmul j i hji
      have : ((i - j : Nat) : Int) * n ≤ (⌈d.maxSamplePeriod / (m : Rat)⌉.toNat : Int) * n :=
        Int.mul_le_mul_of_nonneg_right (by exact_mod_cast h5) (by omega)
      omega
  have := eq_of_nodup_fst out hnd t _ _ hp hmem
  simp at this

/-- C76: no value is carried further than `max_sample_period` and one bin; each is the mean of readings that were taken. -/
theorem C76_far_partial (d : Device) (hM : 0 < d.maxSamplePeriod) (m : Nat) (hm : 0 < m) (rows out : CorChunk) (kw : ResampleKw)
    (hne : rows ≠ []) (hd : (rows.map Prod.fst).Nodup) (h : loadAt d m rows = .ok (out, kw)) (t : Int) (v : Rat)
    (hp : (t, some v) ∈ out) :
    ∃ s, s ≤ t ∧ ((t - s : Int) : Rat) < (d.maxSamplePeriod + m) * 1000000000 ∧
      IsAgg .mean (binValues rows s (s + m * 1000000000)) v ∧ NoReading rows (s + m * 1000000000) (t + m * 1000000000) := by
  have hm' : (0 : Rat) < m := by exact_mod_cast hm
  rw [C76_default d m hm' hM, roundEven_nat] at h
  have hn : (0 : Int) < m * 1000000000 := by omega
  cases hs : safeResample false ((m : Int) * 1000000000) How.mean FillMethod.ffill
      (some ⌈d.maxSamplePeriod / (m : Rat)⌉.toNat) rows with
  | error e => rw [hs] at h; simp [Except.map] at h
  | ok o =>
    rw [hs] at h
    simp only [Except.map, Except.ok.injEq, Prod.mk.injEq] at h
    obtain ⟨rfl, _⟩ := h
    obtain ⟨_, s, _, h2, h3, h4, h5⟩ := (C76_filled _ hn .mean _ rows o hne hd hs t v).1 hp
    refine ⟨s, h2, ?_, h3, h4⟩
    have h6 := h5 _ rfl
    have h7 : ((t - s : Int) : Rat) ≤ ((⌈d.maxSamplePeriod / (m : Rat)⌉.toNat : Int) : Rat) * (m * 1000000000) := by
      exact_mod_cast h6
    have h8 : ((⌈d.maxSamplePeriod / (m : Rat)⌉.toNat : Int) : Rat) < d.maxSamplePeriod / m + 1 := by
      have e : ((⌈d.maxSamplePeriod / (m : Rat)⌉.toNat : Nat) : Int) = ⌈d.maxSamplePeriod / (m : Rat)⌉ := by
        have : 0 < ⌈d.maxSamplePeriod / (m : Rat)⌉ := Int.ceil_pos.2 (by positivity)
        omega
      rw [e]; exact Int.ceil_lt_add_one _
    have h9 : ((⌈d.maxSamplePeriod / (m : Rat)⌉.toNat : Int) : Rat) * (m * 1000000000) <
        (d.maxSamplePeriod / m + 1) * (m * 1000000000) := by
      apply mul_lt_mul_of_pos_right h8; positivity
    have h10 : (d.maxSamplePeriod / m + 1) * (m * 1000000000) = (d.maxSamplePeriod + m) * 1000000000 := by
      field_simp
    linarith

/-- C76: a reading of the mean lies between bounds of the readings. -/
theorem C76_bounds (l : List Rat) (v lo hi : Rat) (h : IsAgg .mean l v) (hl : ∀ x ∈ l, lo ≤ x ∧ x ≤ hi) : lo ≤ v ∧ v ≤ hi := by
  obtain ⟨hne, h⟩ := h
  simp only at h
  have hpos : (0 : Rat) < (l.length : Nat) := by
    have := List.length_pos_iff.2 hne
    exact_mod_cast this
  have h1 : lo * (l.length : Nat) ≤ l.sum ∧ l.sum ≤ hi * (l.length : Nat) := by
    clear h hne hpos
    induction l with
    | nil => simp
    | cons a l ih =>
      obtain ⟨h1, h2⟩ := ih (fun x hx => hl x (List.mem_cons_of_mem _ hx))
      obtain ⟨h3, h4⟩ := hl a (List.mem_cons_self ..)
      simp only [List.length_cons, List.sum_cons]
      push_cast
      constructor <;> linarith
  rw [← h] at h1
  exact ⟨le_of_mul_le_mul_right h1.1 hpos, le_of_mul_le_mul_right h1.2 hpos⟩

theorem ffill_present (limit : Option Nat) (prev : Option Rat) (run : Nat) (xs : CorChunk) (h : ∀ p ∈ xs, p.2 ≠ none) :
    ffillFrom limit prev run xs = xs := by
  induction xs generalizing prev run with
  | nil => rfl
  | cons p xs ih =>
    obtain ⟨t, _ | v⟩ := p
    · exact absurd rfl (h _ (List.mem_cons_self ..))
    · rw [ffillFrom, ih _ _ (fun p hp => h p (List.mem_cons_of_mem _ hp))]

theorem binValues_single (rows : CorChunk) (hd : (rows.map Prod.fst).Nodup) (a b t : Int) (v : Rat) (hm : (t, some v) ∈ rows)
    (hab : a ≤ t ∧ t < b) (honly : ∀ p ∈ rows, a ≤ p.1 → p.1 < b → p.1 = t) : binValues rows a b = [v] := by
  have h : rows.filter (fun p => decide (a ≤ p.1) && decide (p.1 < b)) = [(t, some v)] := by
    rw [filter_eq_singleton]
    obtain ⟨pre, post, rfl⟩ := List.append_of_mem hm
    refine ⟨pre, post, rfl, by simp [hab], ?_⟩
    intro x hx
    by_contra hcon
    have hcon : a ≤ x.1 ∧ x.1 < b := by simpa using hcon
    have hxm : x ∈ pre ++ (t, some v) :: post := by
      rcases List.mem_append.1 hx with h | h <;> simp [h]
    have e := honly x hxm hcon.1 hcon.2
    rw [List.map_append, List.map_cons, List.nodup_middle, List.nodup_cons] at hd
    apply hd.1
    rw [← List.map_append]
    exact List.mem_map.2 ⟨x, hx, e⟩
  simp [binValues, h]

/-- C76: a series that is already regular (whole bins from midnight, no reading missing) is delivered as it is. -/
theorem C76_identity (d : Device) (hM : 0 < d.maxSamplePeriod) (m : Nat) (hm : 0 < m) (start : Int) (k : Nat) (v : Nat → Rat)
    (hstart : (m * 1000000000 : Int) ∣ start % dayNs) :
    ∃ kw, loadAt d m ((List.range k).map (fun i : Nat => (start + i * (m * 1000000000), some (v i)))) =
      .ok ((List.range k).map (fun i : Nat => (start + i * (m * 1000000000), some (v i))), kw) := by
  have hm' : (0 : Rat) < m := by exact_mod_cast hm
  rw [C76_default d m hm' hM, roundEven_nat]
  generalize hN : (m : Int) * 1000000000 = n at *
  have hn : 0 < n := by omega
  have hL0 : 0 < ⌈d.maxSamplePeriod / (m : Rat)⌉ := Int.ceil_pos.2 (by positivity)
  have hL : some ⌈d.maxSamplePeriod / (m : Rat)⌉.toNat ≠ some 0 := by
    simp only [ne_eq, Option.some.injEq]; omega
  generalize some ⌈d.maxSamplePeriod / (m : Rat)⌉.toNat = limit at *
  have key : safeResample false n .mean .ffill limit ((List.range k).map (fun i : Nat => (start + i * n, some (v i)))) =
      .ok ((List.range k).map (fun i : Nat => (start + i * n, some (v i)))) := by
    cases k with
    | zero => rfl
    | succ k =>
      have hinj : Function.Injective (fun i : Nat => start + (i : Int) * n) := by
        intro a b hab
        simp only at hab
        have : (a : Int) * n = b * n := by omega
        have := Int.eq_of_mul_eq_mul_right (by omega) this
        exact_mod_cast this
      generalize hrows : (List.range (k + 1)).map (fun i : Nat => ((start + i * n, some (v i)) : Int × Option Rat)) = rows
      have hmem : ∀ q, q ∈ rows ↔ ∃ i < k + 1, q = (start + (i : Int) * n, some (v i)) := by
        intro q; rw [← hrows]
        simp only [List.mem_map, List.mem_range]
        constructor
        · rintro ⟨i, hi, rfl⟩; exact ⟨i, hi, rfl⟩
        · rintro ⟨i, hi, rfl⟩; exact ⟨i, hi, rfl⟩
      have hd : (rows.map Prod.fst).Nodup := by
        rw [← hrows, List.map_map]
        exact List.Nodup.map hinj List.nodup_range
      obtain ⟨p, rest, hpr⟩ : ∃ p rest, rows = p :: rest := by
        cases rows with
        | nil => have := (hmem (start, some (v 0))).2 ⟨0, by omega, by simp⟩; simp at this
        | cons p rest => exact ⟨p, rest, rfl⟩
      have hmin : minTime p.1 rest = start := by
        obtain ⟨⟨q, hq, h1⟩, h2⟩ := minTime_spec p rest
        rw [← hpr] at hq h2
        obtain ⟨i, _, rfl⟩ := (hmem q).1 hq
        have h3 := h2 _ ((hmem (start, some (v 0))).2 ⟨0, by omega, by simp⟩)
        have : 0 ≤ (i : Int) * n := by positivity
        simp only at h1 h3
        omega
      have hmax : maxTime p.1 rest = start + k * n := by
        obtain ⟨⟨q, hq, h1⟩, h2⟩ := maxTime_spec p rest
        rw [← hpr] at hq h2
        obtain ⟨i, hi, rfl⟩ := (hmem q).1 hq
        have h3 := h2 _ ((hmem (start + (k : Int) * n, some (v k))).2 ⟨k, by omega, rfl⟩)
        have : (i : Int) * n ≤ k * n := Int.mul_le_mul_of_nonneg_right (by omega) (by omega)
        simp only at h1 h3
        omega
      have hbin : binStart n start = start := by
        have := Int.emod_eq_zero_of_dvd hstart
        unfold binStart; omega
      rw [hpr] at hd ⊢
      rw [safeResample_eq n hn _ _ _ p rest hd, hmin, hmax]
      have hbins : resampleBins n .mean start (start + k * n) (p :: rest) = p :: rest := by
        rw [← hpr] at hd ⊢
        conv_rhs => rw [← hrows]
        unfold resampleBins
        rw [hbin]
        have e : ((start + (k : Int) * n - start) / n + 1).toNat = k + 1 := by
          have : start + (k : Int) * n - start = k * n := by ring
          rw [this, Int.mul_ediv_cancel _ (by omega)]; omega
        rw [e]
        apply List.map_congr_left
        intro i hi
        have hi := List.mem_range.1 hi
        simp only [binReadings_eq]
        rw [binValues_single rows hd _ _ (start + i * n) (v i) ((hmem _).2 ⟨i, hi, rfl⟩) ⟨le_refl _, by omega⟩]
        · simp [How.agg]
        · intro q hq h1 h2
          obtain ⟨j, _, rfl⟩ := (hmem q).1 hq
          simp only at h1 h2 ⊢
          have hji : j = i := by
            have h3 : (i : Int) * n ≤ j * n := by omega
            have h4 := Int.le_of_mul_le_mul_right h3 hn
            have h5 : (j : Int) * n < (i + 1) * n := by
              have : ((i : Int) + 1) * n = i * n + n := by ring
              omega
            have h6 := Int.lt_of_mul_lt_mul_right h5 (by omega)
            omega
          rw [hji]
      rw [hbins]
      simp only [fillGaps, if_neg hL]
      rw [ffill_present]
      rw [← hpr]
      intro q hq
      obtain ⟨i, _, rfl⟩ := (hmem q).1 hq
      simp
  rw [key]
  exact ⟨_, rfl⟩

/-- C76: without `sample_period` and `resample`, or with `resample=False`, the data are delivered as they are. -/
theorem C76_off (ambiguous : Bool) (d : Device) (kw : ResampleKw) (sp : Option Rat) (rows : CorChunk) :
    loadColumn ambiguous d ⟨none, none, kw⟩ rows = .ok (rows, kw) ∧
    loadColumn ambiguous d ⟨sp, some false, kw⟩ rows = .ok (rows, kw) := ⟨rfl, rfl⟩

/-- C76: `resample=True` alone resamples to the meter's own sample period. -/
theorem C76_own (ambiguous : Bool) (d : Device) (kw : ResampleKw) (rows : CorChunk) :
    loadColumn ambiguous d ⟨none, some true, kw⟩ rows = loadColumn ambiguous d ⟨some d.samplePeriod, none, kw⟩ rows := rfl

/-- C76: the work-around for `AmbiguousTimeError` always raises `KeyError`: its first attempt emptied the dictionary. -/
theorem C76_ambiguous_counterexample (n : Int) (how : How) (fill : FillMethod) (limit : Option Nat) (rows : CorChunk)
    (hne : rows ≠ []) : safeResample true n how fill limit rows = .error .keyError := by
  cases rows with
  | nil => exact absurd rfl hne
  | cons p rest => simp [safeResample, keepFirst]

/-- C76: a sample period of at most half a second cannot be used: it is rounded to 0. -/
theorem C76_subsecond_counterexample (d : Device) (hM : 0 < d.maxSamplePeriod) (sp : Rat) (h0 : 0 < sp) (h : sp ≤ 1 / 2)
    (rows : CorChunk) (hne : rows ≠ []) : loadAt d sp rows = .error .valueError := by
  rw [C76_default d sp h0 hM]
  have h1 : roundEven sp = 0 := by
    have hf : ⌊sp⌋ = 0 := by
      rw [Int.floor_eq_zero_iff]; exact ⟨le_of_lt h0, by linarith⟩
    unfold roundEven
    rw [hf]
    simp only [Int.cast_zero, sub_zero]
    split
    · rfl
    · rw [if_neg (by linarith)]; simp
  rw [h1]
  cases rows with
  | nil => exact absurd rfl hne
  | cons p rest => simp [safeResample, keepFirst, resampleChain, Except.map]

/-- Seconds. -/
def secs (x : Int) : Int := x * 1000000000

/-- C76: the limit is computed from the sample period before rounding: with `max_sample_period` 10, a gap of 10 seconds is not
filled when `sample_period` is 1.4 (rounded to 1). -/
theorem C76_round_counterexample :
    NoLongGap 10 [(secs 0, some 5), (secs 10, some 5)] ∧
    ∃ out kw, loadAt ⟨1, 10⟩ (7 / 5) [(secs 0, some 5), (secs 10, some 5)] = .ok (out, kw) ∧ (secs 9, none) ∈ out := by
  refine ⟨?_, ?_⟩
  · intro u ⟨p, hp, h1⟩ ⟨q, hq, h2⟩
    simp only [secs, List.mem_cons, List.not_mem_nil, or_false] at hp hq
    have hu0 : 0 ≤ u := by rcases hp with rfl | rfl <;> simp at h1 <;> omega
    have hu1 : u ≤ 10000000000 := by rcases hq with rfl | rfl <;> simp at h2 <;> omega
    refine ⟨(secs 0, some 5), by simp, by simp, by simpa [secs] using hu0, ?_⟩
    have : ((u - (secs 0, some (5 : Rat)).1 : Int) : Rat) ≤ ((10000000000 : Int) : Rat) := by
      apply Int.cast_le.2; simpa [secs] using hu1
    refine le_trans this ?_
    norm_num
  · exact ⟨(List.range 11).map (fun i : Nat => (secs i, if i = 9 then none else some 5)),
      ⟨some .mean, some .ffill, some (some 8)⟩, by decide +kernel, by decide +kernel⟩

/-- C76: each chunk is resampled by itself, so that a bin cut by a chunk boundary is delivered twice, with different values
(the chunks share the row at 30 seconds, as those of an HDF store do). -/
theorem C76_chunk_counterexample :
    let kw : ResampleKw := ⟨some .mean, some .ffill, some (some 1)⟩
    let whole : CorChunk := [(secs 0, some 0), (secs 30, some 100), (secs 90, some 20)]
    loadAt ⟨30, 60⟩ 60 whole = .ok ([(secs 0, some 50), (secs 60, some 20)], kw) ∧
    loadAt ⟨30, 60⟩ 60 (whole.take 2) = .ok ([(secs 0, some 50)], kw) ∧
    loadAt ⟨30, 60⟩ 60 (whole.drop 1) = .ok ([(secs 0, some 100), (secs 60, some 20)], kw) :=
  ⟨by decide +kernel, by decide +kernel, by decide +kernel⟩

/-- C76: `load` writes its defaults into the dictionary `resample_kwargs` that it is given. Using the dictionary again for
another sample period keeps the limit of the first: a gap of 10 minutes is filled although `max_sample_period` is 10 seconds. -/
theorem C76_dictionary_counterexample :
    let d : Device := ⟨1, 10⟩
    let rows : CorChunk := [(secs 0, some 5), (secs 600, some 5)]
    ∃ out kw, loadColumn false d ⟨some 1, none, ⟨none, none, none⟩⟩ rows = .ok (out, kw) ∧
      loadColumn false d ⟨some 60, none, kw⟩ rows = .ok ((List.range 11).map (fun i : Nat => (secs (60 * i), some 5)), kw) ∧
      ∃ out' kw', loadColumn false d ⟨some 60, none, ⟨none, none, none⟩⟩ rows = .ok (out', kw') ∧ (secs 120, none) ∈ out' := by
  refine ⟨(List.range 601).map (fun i : Nat => (secs i, if i ≤ 10 ∨ i = 600 then some 5 else none)),
    ⟨some .mean, some .ffill, some (some 10)⟩, by decide +kernel, by decide +kernel,
    (List.range 11).map (fun i : Nat => (secs (60 * i), if i ≤ 1 ∨ i = 10 then some 5 else none)),
    ⟨some .mean, some .ffill, some (some 1)⟩, by decide +kernel, by decide +kernel⟩

/-- The hypotheses of the theorems above hold for readings every 6 seconds with a gap of 18, resampled to 10 seconds with
`max_sample_period` 18; the result has values of bins and one value carried on. -/
example :
    let rows : CorChunk := [(secs 1, some 5), (secs 7, some 7), (secs 13, some 9), (secs 31, some 4)]
    (rows.map Prod.fst).Nodup ∧ NoLongGap 18 rows ∧
    loadAt ⟨6, 18⟩ 10 rows = .ok ([(secs 0, some 6), (secs 10, some 9), (secs 20, some 9), (secs 30, some 4)],
      ⟨some .mean, some .ffill, some (some 2)⟩) := by
  refine ⟨by decide, ?_, by decide +kernel⟩
  intro u ⟨p, hp, h1⟩ ⟨q, hq, h2⟩
  simp only [secs, List.mem_cons, List.not_mem_nil, or_false] at hp hq
  have hu0 : 1000000000 ≤ u := by rcases hp with rfl | rfl | rfl | rfl <;> simp at h1 <;> omega
  have hu1 : u ≤ 31000000000 := by rcases hq with rfl | rfl | rfl | rfl <;> simp at h2 <;> omega
  have cast : ∀ a : Int, u - a ≤ 18000000000 → ((u - a : Int) : Rat) ≤ 18 * 1000000000 := by
    intro a h
    have : ((u - a : Int) : Rat) ≤ ((18000000000 : Int) : Rat) := Int.cast_le.2 h
    refine le_trans this (by norm_num)
  by_cases h : u < 13000000000
  · exact ⟨(secs 1, some 5), by simp, by simp, by simpa [secs] using hu0, cast _ (by simp [secs]; omega)⟩
  · exact ⟨(secs 13, some 9), by simp, by simp, by simp [secs]; omega, cast _ (by simp [secs]; omega)⟩

/-- The hypothesis of `C76_identity` holds for a minute grid that starts at one o'clock. -/
example : ((60 : Nat) * 1000000000 : Int) ∣ secs 3600 % dayNs := by decide

end Nilmtk
