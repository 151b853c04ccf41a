import Verif.Model.Caxe
import Verif.Props.Iawe
/-!
C127: what the conversion of CAxE stores, and which files it refuses.
-/
namespace Nilmtk

/-! ### Specification -/

/-- The row has all six values. -/
def CaxeHasAll (r : Int × List (Option Rat)) : Prop := ∀ j : Nat, j < 6 → ∃ v : Rat, r.2[j]? = some (some v)

/-- The readings of a column in the rows that have all values. -/
noncomputable def caxeReadings (rows : List (Int × List (Option Rat))) (j : Nat) : PSeries :=
  haveI : DecidablePred CaxeHasAll := Classical.decPred _
  (rows.filter (fun r => decide (CaxeHasAll r))).map (fun r => (r.1, (r.2[j]?).join))

/-- Between two complete rows there is a whole minute without any. -/
def CaxeGap (rows : List (Int × List (Option Rat))) : Prop :=
  ∃ t : Int, (60000000000 : Int) ∣ t ∧ (∃ a ∈ rows, CaxeHasAll a ∧ a.1 < t) ∧ (∃ b ∈ rows, CaxeHasAll b ∧ t + 60000000000 ≤ b.1) ∧
    ∀ r ∈ rows, CaxeHasAll r → ¬ (t ≤ r.1 ∧ r.1 < t + 60000000000)

/-- The table: one row for each minute without a break, the first with the first complete row and the last with the last one, with the means of the
complete rows of the minute. -/
structure CaxeGives (rows : List (Int × List (Option Rat))) (t : RawTable (List Rat)) : Prop where
  columns : t.columns = [("power", "reactive"), ("power", "apparent"), ("current", ""), ("frequency", ""), ("voltage", ""), ("power", "active")]
  times : ∃ (start : Int) (n : Nat), (60000000000 : Int) ∣ start ∧ t.rows.map Prod.fst = (List.range n).map (fun i : Nat => start + i * 60000000000)
  values : ∀ r ∈ t.rows, r.2.length = 6 ∧ ∀ (j : Nat) v, r.2[j]? = some v → windowMean 60000000000 r.1 (caxeReadings rows j) = some v
  every : ∀ r ∈ rows, CaxeHasAll r → ∃ q ∈ t.rows, q.1 ≤ r.1 ∧ r.1 < q.1 + 60000000000

/-! ### Lemmas -/

theorem caxeComplete_iff (r : Int × List (Option Rat)) : caxeComplete r = true ↔ CaxeHasAll r := by
  unfold caxeComplete CaxeHasAll
  rw [List.all_eq_true]
  constructor
  · intro h j hj
    have := h j (List.mem_range.2 hj)
    cases h1 : r.2[j]? with
    | none => rw [h1] at this; cases this
    | some o =>
      cases o with
      | none => rw [h1] at this; cases this
      | some v => exact ⟨v, rfl⟩
  · intro h j hj
    obtain ⟨v, hv⟩ := h j (List.mem_range.1 hj)
    rw [hv]
    rfl

theorem caxeReadings_eq (rows : List (Int × List (Option Rat))) (j : Nat) :
    caxeReadings rows j = (rows.filter caxeComplete).map (fun r => (r.1, (r.2[j]?).join)) := by
  classical
  unfold caxeReadings
  congr 1
  apply List.filter_congr
  intro r _
  rw [Bool.eq_iff_iff, decide_eq_true_eq, caxeComplete_iff]

theorem mem_gridOf_iff (p : Int) (hp : 0 < p) (s : PSeries) (hs : SortedSeries s) (t : Int) :
    t ∈ gridOf p s ↔ p ∣ t ∧ (∃ a ∈ s, a.1 < t + p) ∧ ∃ b ∈ s, t ≤ b.1 := by
  constructor
  · intro h
    refine ⟨mem_gridOf_dvd p s t h, ?_⟩
    unfold gridOf at h
    split at h
    · rename_i f l hf hl
      obtain ⟨i, hi, rfl⟩ := List.mem_map.1 h
      rw [List.mem_range] at hi
      have bf := (binOf_eq_iff p f.1 _ hp).1 rfl
      have bl := (binOf_eq_iff p l.1 _ hp).1 rfl
      have hi0 : (0 : Int) ≤ (i : Int) * p := mul_nonneg (by omega) hp.le
      refine ⟨⟨f, List.mem_of_mem_head? hf, by linarith [bf.2.2]⟩, ⟨l, List.mem_of_getLast? hl, ?_⟩⟩
      by_cases h0 : 0 ≤ (binOf p l.1 - binOf p f.1) / p
      · have h1 : (i : Int) ≤ (binOf p l.1 - binOf p f.1) / p := by omega
        have h2 := Int.mul_le_of_le_ediv hp h1
        linarith [bl.2.1]
      · have hfl : f.1 ≤ l.1 := by
          cases s with
          | nil => cases hf
          | cons x xs =>
            cases hf
            rcases List.mem_cons.1 (List.mem_of_getLast? hl) with rfl | hm
            · exact le_refl _
            · exact (List.pairwise_cons.1 hs).1 l hm
        have h1 : i = 0 := by omega
        subst h1
        simp only [Nat.cast_zero, zero_mul, add_zero]
        linarith [bf.2.1]
    · cases h
  · rintro ⟨⟨q, hq⟩, ⟨a, ha, h1⟩, b, hb, h2⟩
    have ga := bin_mem_gridOf p hp s hs a ha
    have gb := bin_mem_gridOf p hp s hs b hb
    obtain ⟨⟨qa, hqa⟩, ba⟩ := (binOf_eq_iff p a.1 _ hp).1 rfl
    obtain ⟨⟨qb, hqb⟩, bb⟩ := (binOf_eq_iff p b.1 _ hp).1 rfl
    have hle1 : qa ≤ q := by
      have : p * qa < p * (q + 1) := by rw [← hqa, mul_add, ← hq]; linarith [ba.1]
      have := lt_of_mul_lt_mul_left this hp.le
      omega
    have hle2 : q ≤ qb := by
      have : p * q < p * (qb + 1) := by rw [mul_add, ← hqb, ← hq]; linarith [bb.2]
      have := lt_of_mul_lt_mul_left this hp.le
      omega
    unfold gridOf at ga gb ⊢
    split at ga
    · rename_i f l hf hl
      rw [hf, hl] at gb
      simp only at gb
      obtain ⟨i, hi, hia⟩ := List.mem_map.1 ga
      obtain ⟨k, hk, hkb⟩ := List.mem_map.1 gb
      rw [List.mem_range] at hk
      obtain ⟨qf, hqf⟩ := dvd_binOf p f.1
      have e1 : qf + i = qa := by
        have : p * (qf + i) = p * qa := by rw [← hqa, ← hia, hqf]; ring
        exact mul_left_cancel₀ hp.ne' this
      have e2 : qf + k = qb := by
        have : p * (qf + k) = p * qb := by rw [← hqb, ← hkb, hqf]; ring
        exact mul_left_cancel₀ hp.ne' this
      refine List.mem_map.2 ⟨(q - qf).toNat, List.mem_range.2 (by omega), ?_⟩
      rw [hqf, hq]
      have : (((q - qf).toNat : Nat) : Int) = q - qf := by omega
      rw [this]
      ring
    · cases ga

theorem windowMean_none_iff (p t : Int) (s : PSeries) : windowMean p t s = none ↔ readingsIn p t s = [] := by
  unfold windowMean
  by_cases h : readingsIn p t s = []
  · rw [if_pos h]; exact ⟨fun _ => h, fun _ => rfl⟩
  · rw [if_neg h]; exact ⟨fun h' => (by cases h'), fun h' => absurd h' h⟩

theorem caxe_window (rows : List (Int × List (Option Rat))) (t : Int) (j : Nat) (hj : j < 6) :
    windowMean 60000000000 t (caxeReadings rows j) = none ↔ ∀ r ∈ rows, CaxeHasAll r → ¬ (t ≤ r.1 ∧ r.1 < t + 60000000000) := by
  rw [windowMean_none_iff, caxeReadings_eq]
  unfold readingsIn
  rw [List.filterMap_eq_nil_iff]
  constructor
  · intro h r hr hall hw
    obtain ⟨v, hv⟩ := hall j hj
    have := h (r.1, (r.2[j]?).join) (List.mem_filter.2 ⟨List.mem_map.2 ⟨r, List.mem_filter.2 ⟨hr, (caxeComplete_iff r).2 hall⟩, rfl⟩, by simpa using hw⟩)
    rw [hv] at this
    cases this
  · intro h x hx
    obtain ⟨h1, h2⟩ := List.mem_filter.1 hx
    obtain ⟨r, hr, rfl⟩ := List.mem_map.1 h1
    obtain ⟨h3, h4⟩ := List.mem_filter.1 hr
    exact absurd (by simpa using h2) (h r h3 ((caxeComplete_iff r).1 h4))

theorem caxeColumns_eq : caxeColumns =
    [("power", "reactive"), ("power", "apparent"), ("current", ""), ("frequency", ""), ("voltage", ""), ("power", "active")] := by decide +kernel

theorem caxeTable_spec {sort : List (Int × List (Option Rat)) → List (Int × List (Option Rat))} (hsort : SortsByTime sort)
    (rows : List (Int × List (Option Rat))) :
    (CaxeGap rows ∧ caxeTable sort rows = .error .assertionError) ∨
    ((∀ r ∈ rows, ¬ CaxeHasAll r) ∧ caxeTable sort rows = .error .keyError) ∨
    (¬ CaxeGap rows ∧ (∃ r ∈ rows, CaxeHasAll r) ∧ ∃ t, caxeTable sort rows = .ok t ∧ CaxeGives rows t) := by
  have h0 : (0 : Int) < 60000000000 := by norm_num
  unfold caxeTable iaweMinute
  simp only
  obtain ⟨kept, hkept⟩ : ∃ kept, kept = sort (rows.filter caxeComplete) := ⟨_, rfl⟩
  rw [← hkept]
  have hpk : kept.Perm (rows.filter caxeComplete) := by rw [hkept]; exact hsort.perm _
  have hmem : ∀ r, r ∈ kept ↔ r ∈ rows ∧ CaxeHasAll r := by
    intro r
    rw [hpk.mem_iff, List.mem_filter, caxeComplete_iff]
  have hsorted : ∀ j : Nat, SortedSeries (kept.map (fun r => (r.1, (r.2[j]?).join))) := by
    intro j
    unfold SortedSeries
    rw [List.pairwise_map, hkept]
    exact hsort.sorted _
  have hperm : ∀ j : Nat, (kept.map (fun r => (r.1, (r.2[j]?).join))).Perm (caxeReadings rows j) := by
    intro j
    rw [caxeReadings_eq]
    exact hpk.map _
  obtain ⟨grid, hgrid⟩ : ∃ grid, grid = gridOf 60000000000 (kept.map (fun r => (r.1, (r.2[0]?).join))) := ⟨_, rfl⟩
  have hg : ∀ t, t ∈ grid ↔ (60000000000 : Int) ∣ t ∧ (∃ a ∈ rows, CaxeHasAll a ∧ a.1 < t + 60000000000) ∧ ∃ b ∈ rows, CaxeHasAll b ∧ t ≤ b.1 := by
    intro t
    rw [hgrid, mem_gridOf_iff _ h0 _ (hsorted 0)]
    constructor
    · rintro ⟨hd, ⟨a, ha, ha2⟩, b, hb, hb2⟩
      obtain ⟨a', ha', rfl⟩ := List.mem_map.1 ha
      obtain ⟨b', hb', rfl⟩ := List.mem_map.1 hb
      exact ⟨hd, ⟨a', ((hmem _).1 ha').1, ((hmem _).1 ha').2, ha2⟩, b', ((hmem _).1 hb').1, ((hmem _).1 hb').2, hb2⟩
    · rintro ⟨hd, ⟨a, ha, ha2, ha3⟩, b, hb, hb2, hb3⟩
      exact ⟨hd, ⟨_, List.mem_map.2 ⟨a, (hmem _).2 ⟨ha, ha2⟩, rfl⟩, ha3⟩, _, List.mem_map.2 ⟨b, (hmem _).2 ⟨hb, hb2⟩, rfl⟩, hb3⟩
  have htab : (resampleMean 60000000000 (kept.map (fun r => (r.1, (r.2[0]?).join)))).map (fun r => (r.1, (List.range 6).map (fun j =>
      (resampleMean 60000000000 (kept.map (fun r => (r.1, (r.2[j]?).join)))).at r.1))) =
      grid.map (fun t => (t, (List.range 6).map (fun j => windowMean 60000000000 t (caxeReadings rows j)))) := by
    rw [resampleMean_eq _ h0 (kept.map (fun r => (r.1, (r.2[0]?).join))), List.map_map, ← hgrid]
    apply List.map_congr_left
    intro t ht
    simp only [Function.comp_apply]
    congr 1
    apply List.map_congr_left
    intro j _
    rw [at_resample _ h0 _ (hsorted j) t ((hg t).1 ht).1, windowMean_perm (hperm j)]
  rw [htab]
  by_cases hany : (grid.map (fun t => (t, (List.range 6).map (fun j => windowMean 60000000000 t (caxeReadings rows j))))).any
      (fun r => r.2.any Option.isNone) = true
  · rw [if_pos hany]
    refine .inl ⟨?_, rfl⟩
    obtain ⟨x, hx, h⟩ := List.any_eq_true.1 hany
    obtain ⟨t, ht, rfl⟩ := List.mem_map.1 hx
    obtain ⟨y, hy, hn⟩ := List.any_eq_true.1 h
    obtain ⟨j, hj, rfl⟩ := List.mem_map.1 hy
    have hno := (caxe_window rows t j (List.mem_range.1 hj)).1 (Option.isNone_iff_eq_none.1 hn)
    obtain ⟨hd, ⟨a, ha, ha2, ha3⟩, b, hb, hb2, hb3⟩ := (hg t).1 ht
    refine ⟨t, hd, ⟨a, ha, ha2, ?_⟩, ⟨b, hb, hb2, ?_⟩, hno⟩
    · by_contra hc
      exact hno a ha ha2 ⟨by omega, ha3⟩
    · by_contra hc
      exact hno b hb hb2 ⟨hb3, by omega⟩
  · rw [if_neg hany]
    have hsome : ∀ t ∈ grid, ∀ j, j < 6 → windowMean 60000000000 t (caxeReadings rows j) ≠ none := by
      intro t ht j hj hn
      apply hany
      rw [List.any_eq_true]
      exact ⟨_, List.mem_map.2 ⟨t, ht, rfl⟩, List.any_eq_true.2 ⟨_, List.mem_map.2 ⟨j, List.mem_range.2 hj, rfl⟩, by rw [hn]; rfl⟩⟩
    by_cases he : grid = []
    · rw [he]
      refine .inr (.inl ⟨?_, rfl⟩)
      intro r hr hall
      have : r.1 / 60000000000 * 60000000000 ∈ grid :=
        (hg _).2 ⟨⟨_, mul_comm _ _⟩, ⟨r, hr, hall, by omega⟩, r, hr, hall, by omega⟩
      rw [he] at this
      cases this
    · have hne : (grid.map (fun t => (t, (List.range 6).map (fun j => windowMean 60000000000 t (caxeReadings rows j))))).isEmpty = false := by
        cases grid with
        | nil => exact absurd rfl he
        | cons _ _ => rfl
      rw [hne]
      refine .inr (.inr ⟨?_, ?_, _, rfl, caxeColumns_eq, ?_, ?_, ?_⟩)
      · rintro ⟨t, hd, ⟨a, ha, ha2, ha3⟩, ⟨b, hb, hb2, hb3⟩, hno⟩
        exact hsome t ((hg t).2 ⟨hd, ⟨a, ha, ha2, by omega⟩, b, hb, hb2, by omega⟩) 0 (by omega) ((caxe_window rows t 0 (by omega)).2 hno)
      · obtain ⟨t, ht⟩ := List.exists_mem_of_ne_nil _ he
        obtain ⟨-, ⟨a, ha, ha2, -⟩, -⟩ := (hg t).1 ht
        exact ⟨a, ha, ha2⟩
      · simp only [List.map_map]
        rw [show (Prod.fst ∘ (fun r : Int × List (Option Rat) => (r.1, r.2.filterMap id)) ∘
          (fun t => (t, (List.range 6).map (fun j => windowMean 60000000000 t (caxeReadings rows j))))) = id from rfl, List.map_id]
        rw [hgrid] at he ⊢
        unfold gridOf at he ⊢
        split at he
        · rename_i f l hf hl
          exact ⟨_, _, dvd_binOf _ _, rfl⟩
        · exact absurd rfl he
      · intro r hr
        simp only [List.map_map] at hr
        obtain ⟨t, ht, rfl⟩ := List.mem_map.1 hr
        simp only [Function.comp_apply]
        have hnn : none ∉ (List.range 6).map (fun j => windowMean 60000000000 t (caxeReadings rows j)) := by
          intro hn
          obtain ⟨j, hj, hj2⟩ := List.mem_map.1 hn
          exact hsome t ht j (List.mem_range.1 hj) hj2
        have hv := filterMap_id_some hnn
        refine ⟨?_, ?_⟩
        · have := congrArg List.length hv
          simpa using this
        · intro j v hj
          have h1 : ((List.range 6).map (fun j => windowMean 60000000000 t (caxeReadings rows j)))[j]? = some (some v) := by
            rw [← hv, List.getElem?_map, hj]
            rfl
          rw [List.getElem?_map] at h1
          obtain ⟨i, hi, hi2⟩ := Option.map_eq_some_iff.1 h1
          have : i = j := by
            obtain ⟨_, h3⟩ := List.getElem?_eq_some_iff.1 hi
            simpa using h3.symm
          rw [← this]
          exact hi2
      · intro r hr hall
        have hm : r.1 / 60000000000 * 60000000000 ∈ grid :=
          (hg _).2 ⟨⟨_, mul_comm _ _⟩, ⟨r, hr, hall, by omega⟩, r, hr, hall, by omega⟩
        refine ⟨_, List.mem_map.2 ⟨_, List.mem_map.2 ⟨_, hm, rfl⟩, rfl⟩, ?_, ?_⟩
        · simp only
          omega
        · simp only
          omega

/-- C127. A file of CAxE with times that have a time zone, with a complete row, and without a whole minute between two complete rows in which there is
none, is stored as meter 1 of building 1, with one row for each minute and the means of its complete rows. Nothing else is stored. -/
theorem C127_stored {sort : List (Int × List (Option Rat)) → List (Int × List (Option Rat))} (hsort : SortsByTime sort)
    (rows : List (Int × List (Option Rat))) (hall : ∃ r ∈ rows, CaxeHasAll r) (hgap : ¬ CaxeGap rows) :
    ∃ st t, convertCaxe sort true rows = (st, none) ∧ CaxeGives rows t ∧ st (meterKey 1 1) = some t ∧ ∀ k, k ≠ meterKey 1 1 → st k = none := by
  obtain ⟨r, hr, hr2⟩ := hall
  have hne : rows.isEmpty = false := by
    cases rows with
    | nil => cases hr
    | cons _ _ => rfl
  obtain ⟨k1, k2⟩ := key_numbers 1 1 (by omega) (by omega)
  have k1' : Key.ofNumbers 1 (some (1 : Int)) = .ok ⟨((1 : Nat) : Int), some ((1 : Nat) : Int), none⟩ := k1
  unfold convertCaxe
  rw [hne, k1']
  simp only [Bool.false_eq_true, if_false, Bool.not_true]
  rw [k2]
  rcases caxeTable_spec hsort rows with ⟨h1, -⟩ | ⟨h1, -⟩ | ⟨-, -, t, h1, h2⟩
  · exact absurd h1 hgap
  · exact absurd hr2 (h1 r hr)
  · rw [h1]
    refine ⟨_, t, rfl, h2, ?_, ?_⟩
    · simp [RawStore.put]
    · intro k hk
      simp [RawStore.put, hk]

/-- C127. All other files are refused, and nothing is stored: an empty file, times without a time zone, no complete row, or a minute without one. -/
theorem C127_refused {sort : List (Int × List (Option Rat)) → List (Int × List (Option Rat))} (hsort : SortsByTime sort)
    (aware : Bool) (rows : List (Int × List (Option Rat))) (h : aware = false ∨ (∀ r ∈ rows, ¬ CaxeHasAll r) ∨ CaxeGap rows) :
    ∃ e, convertCaxe sort aware rows = (fun _ => none, some e) ∧
      (rows = [] → e = .valueError) ∧
      (rows ≠ [] → aware = false → e = .typeError) ∧
      (rows ≠ [] → aware = true → (∀ r ∈ rows, ¬ CaxeHasAll r) → e = .keyError) ∧
      (aware = true → CaxeGap rows → e = .assertionError) := by
  obtain ⟨k1, k2⟩ := key_numbers 1 1 (by omega) (by omega)
  have k1' : Key.ofNumbers 1 (some (1 : Int)) = .ok ⟨((1 : Nat) : Int), some ((1 : Nat) : Int), none⟩ := k1
  unfold convertCaxe
  by_cases hr : rows = []
  · subst hr
    refine ⟨.valueError, rfl, fun _ => rfl, fun h => absurd rfl h, fun h => absurd rfl h, ?_⟩
    rintro - ⟨t, -, ⟨a, ha, -⟩, -⟩
    cases ha
  have hne : rows.isEmpty = false := by
    cases rows with
    | nil => exact absurd rfl hr
    | cons _ _ => rfl
  rw [hne, k1']
  simp only [Bool.false_eq_true, if_false]
  cases aware with
  | false => exact ⟨.typeError, rfl, fun h => absurd h hr, fun _ _ => rfl, fun _ h => (by cases h), fun h => (by cases h)⟩
  | true =>
    simp only [Bool.not_true, Bool.false_eq_true, if_false]
    rw [k2]
    rcases caxeTable_spec hsort rows with ⟨h1, h2⟩ | ⟨h1, h2⟩ | ⟨h1, ⟨r, q1, q2⟩, -⟩
    · rw [h2]
      refine ⟨.assertionError, rfl, fun h => absurd h hr, fun _ h => (by cases h), ?_, fun _ _ => rfl⟩
      intro _ _ hn
      obtain ⟨t, -, ⟨a, ha, ha2, -⟩, -⟩ := h1
      exact absurd ha2 (hn a ha)
    · rw [h2]
      refine ⟨.keyError, rfl, fun h => absurd h hr, fun _ h => (by cases h), fun _ _ _ => rfl, ?_⟩
      rintro - ⟨t, -, ⟨a, ha, ha2, -⟩, -⟩
      exact absurd ha2 (h1 a ha)
    · rcases h with h | h | h
      · cases h
      · exact absurd q2 (h r q1)
      · exact absurd h h1

/-! ### Examples -/

/-- A file with a complete row in each of two minutes, two rows of the same time, and an incomplete row. -/
def caxeExample : List (Int × List (Option Rat)) :=
  [(61000000000, [some 1, some 2, some 3, some 50, some 230, some 10]), (5000000000, [some 1, some 2, some 3, some 50, some 230, some 4]),
   (5000000000, [some 3, some 2, some 3, some 50, some 230, some 8]), (7000000000, [some 3, none, some 3, some 50, some 230, some 90])]

example : (∃ r ∈ caxeExample, CaxeHasAll r) ∧ ¬ CaxeGap caxeExample := by
  refine ⟨⟨_, List.mem_cons_self, (caxeComplete_iff _).1 (by decide +kernel)⟩, ?_⟩
  rintro ⟨t, hd, ⟨a, ha, -, ha3⟩, ⟨b, hb, -, hb3⟩, -⟩
  have h1 : ∀ r ∈ caxeExample, 5000000000 ≤ r.1 ∧ r.1 ≤ 61000000000 := by decide +kernel
  have := h1 a ha
  have := h1 b hb
  omega

example : CaxeGap [(5000000000, List.replicate 6 (some 1)), (125000000000, List.replicate 6 (some 1))] := by
  refine ⟨60000000000, ⟨1, by norm_num⟩, ⟨_, List.mem_cons_self, (caxeComplete_iff _).1 (by decide +kernel), by decide⟩,
    ⟨_, List.mem_cons_of_mem _ List.mem_cons_self, (caxeComplete_iff _).1 (by decide +kernel), by decide⟩, ?_⟩
  intro r hr _
  simp only [List.mem_cons, List.not_mem_nil, or_false] at hr
  rcases hr with rfl | rfl <;> simp

end Nilmtk
