import Verif.Model.Iawe
import Verif.Props.Ampds
import Verif.Props.Metrics
/-!
C126: what the conversion of iAWE stores.
-/
namespace Nilmtk

/-! ### Specification -/

/-- What a column of iAWE means. -/
inductive IaweMeans : Str → String × String → Prop
  | frequency : IaweMeans "frequency".toList ("frequency", "")
  | voltage : IaweMeans "voltage".toList ("voltage", "")
  | watt : IaweMeans "W".toList ("power", "active")
  | energy : IaweMeans "energy".toList ("energy", "apparent")
  | ampere : IaweMeans "A".toList ("current", "")
  | reactive : IaweMeans "reactive_power".toList ("power", "reactive")
  | apparent : IaweMeans "apparent_power".toList ("power", "apparent")
  | factor : IaweMeans "power_factor".toList ("pf", "")
  | pf : IaweMeans "PF".toList ("pf", "")
  | angle : IaweMeans "phase_angle".toList ("phi", "")
  | va : IaweMeans "VA".toList ("power", "apparent")
  | var : IaweMeans "VAR".toList ("power", "reactive")
  | vln : IaweMeans "VLN".toList ("voltage", "")
  | v : IaweMeans "V".toList ("voltage", "")
  | f : IaweMeans "f".toList ("frequency", "")

/-- The first row of each time. -/
def firstRows : List (Int × List (Option Rat)) → List (Int × List (Option Rat))
  | [] => []
  | a :: l => a :: (firstRows l).filter (fun r => decide (r.1 ≠ a.1))

/-- The rows that are used: the first of each time, if it has all values. -/
def usableRows (f : IaweFile) : List (Int × List (Option Rat)) := (firstRows f.rows).filter (fun r => decide (none ∉ r.2))

/-- A column of these rows. -/
def usableColumn (f : IaweFile) (j : Nat) : PSeries := (usableRows f).map (fun r => (r.1, (r.2[j]?).join))

/-- The means of a column over the minutes in which there are rows. -/
def minuteMeans (s : PSeries) : List Rat := (s.map (fun r => r.1 / 60000000000 * 60000000000)).dedup.filterMap (fun t => windowMean 60000000000 t s)

/-- The median: the middle one, or the mean of the two in the middle. -/
def IsMedian (l : List Rat) (m : Rat) : Prop :=
  ∃ (s : List Rat) (a b : Rat), s.Perm l ∧ s.Pairwise (· ≤ ·) ∧ s[(s.length - 1) / 2]? = some a ∧ s[s.length / 2]? = some b ∧ m = (a + b) / 2

/-- The table of a file: one row for each minute from 2013-07-13 to 2013-08-04; the mean of the usable readings of the minute, or, if there is none, 0
for power and the median of the means of all minutes for all else. -/
structure IaweGives (f : IaweFile) (t : RawTable (List Rat)) : Prop where
  timestamp : "timestamp".toList ∈ f.header
  columns : List.Forall₂ IaweMeans (f.header.filter (fun c => decide (c ≠ "timestamp".toList))) t.columns
  times : t.rows.map Prod.fst = (List.range 31681).map (fun i : Nat => (1373673600 + 60 * (i : Int)) * 1000000000)
  values : ∀ r ∈ t.rows, r.2.length = t.columns.length ∧ ∀ (j : Nat) c v, t.columns[j]? = some c → r.2[j]? = some v →
    (∀ m, windowMean 60000000000 r.1 (usableColumn f j) = some m → v = m) ∧
    (windowMean 60000000000 r.1 (usableColumn f j) = none →
      (c.1 = "power" → v = 0) ∧ (c.1 ≠ "power" → IsMedian (minuteMeans (usableColumn f j)) v))

/-- The error of a file: no times, an unknown column, or a column that is not power without any usable value. -/
def IaweRefused (f : IaweFile) (e : Err) : Prop :=
  ("timestamp".toList ∉ f.header ∧ e = .keyError) ∨
  ((∃ c ∈ f.header, c ≠ "timestamp".toList ∧ ∀ m, ¬ IaweMeans c m) ∧ e = .keyError) ∨
  ((∃ (j : Nat) (c : Str) (m : String × String), (f.header.filter (fun c => decide (c ≠ "timestamp".toList)))[j]? = some c ∧ IaweMeans c m ∧
    m.1 ≠ "power" ∧ minuteMeans (usableColumn f j) = []) ∧ e = .assertionError)

/-! ### Lemmas -/

theorem iawe_means (c : Str) (m : String × String) : (c, m) ∈ iaweMapping ↔ IaweMeans c m := by
  constructor
  · have hall : ∀ p ∈ iaweMapping, IaweMeans p.1 p.2 := by
      unfold iaweMapping
      simp only [List.forall_mem_cons]
      exact ⟨.frequency, .voltage, .watt, .energy, .ampere, .reactive, .apparent, .factor, .pf, .angle, .va, .var, .vln, .v, .f, by simp⟩
    exact hall (c, m)
  · intro h
    cases h <;> decide +kernel

theorem iaweColumns_spec : ∀ cs : List Str,
    (∃ ms, iaweColumns cs = .ok ms ∧ List.Forall₂ IaweMeans cs ms) ∨
    (iaweColumns cs = .error .keyError ∧ ∃ c ∈ cs, ∀ m, ¬ IaweMeans c m) := by
  intro cs
  induction cs with
  | nil => exact .inl ⟨[], rfl, .nil⟩
  | cons c cs ih =>
    unfold iaweColumns
    cases hl : iaweMapping.lookup c with
    | none => exact .inr ⟨rfl, c, List.mem_cons_self, fun m hm => lookup_none_mem hl m ((iawe_means c m).2 hm)⟩
    | some m =>
      rcases ih with ⟨ms, h1, h2⟩ | ⟨h1, x, hx, h2⟩
      · exact .inl ⟨m :: ms, by rw [h1], .cons ((iawe_means c m).1 (lookup_mem hl)) h2⟩
      · exact .inr ⟨by rw [h1], x, List.mem_cons_of_mem _ hx, h2⟩

theorem dropDups_firstRows (l : List (Int × List (Option Rat))) : ∀ seen, dropDups seen l = (firstRows l).filter (fun r => decide (r.1 ∉ seen)) := by
  induction l with
  | nil => intro seen; rfl
  | cons a l ih =>
    intro seen
    unfold dropDups firstRows
    by_cases h : a.1 ∈ seen
    · rw [if_pos h, List.filter_cons_of_neg (by simpa using h), List.filter_filter, ih]
      apply List.filter_congr
      intro x _
      by_cases hx : x.1 ∈ seen
      · simp [hx]
      · have : x.1 ≠ a.1 := fun e => hx (e ▸ h)
        simp [hx, this]
    · rw [if_neg h, List.filter_cons_of_pos (by simpa using h), List.filter_filter, ih]
      congr 1
      apply List.filter_congr
      intro x _
      simp only [List.mem_cons, not_or, ← Bool.decide_and, and_comm]

theorem usable_eq (f : IaweFile) : (dropDups [] f.rows).filter (fun r => r.2.all Option.isSome) = usableRows f := by
  unfold usableRows
  rw [dropDups_firstRows]
  simp only [List.not_mem_nil, not_false_eq_true, decide_true, List.filter_true]
  apply List.filter_congr
  intro r _
  rw [Bool.eq_iff_iff, List.all_eq_true, decide_eq_true_eq]
  constructor
  · intro h hn
    have := h none hn
    cases this
  · intro h x hx
    cases x with
    | none => exact absurd hx h
    | some v => rfl

theorem windowMean_perm {p t : Int} {a b : PSeries} (h : a.Perm b) : windowMean p t a = windowMean p t b := by
  have hp : (readingsIn p t a).Perm (readingsIn p t b) := (h.filter _).filterMap _
  unfold windowMean
  rw [hp.sum_eq, hp.length_eq]
  by_cases he : readingsIn p t a = []
  · rw [if_pos he, if_pos (by rw [he] at hp; exact hp.nil_eq.symm)]
  · rw [if_neg he, if_neg (by intro hb; rw [hb] at hp; exact he hp.eq_nil)]

theorem medianOf_spec (l : List Rat) : (l = [] ∧ medianOf l = none) ∨ ∃ m, medianOf l = some m ∧ IsMedian l m := by
  by_cases hl : l = []
  · exact .inl ⟨hl, by rw [hl]; rfl⟩
  · right
    have hp := List.perm_insertionSort (· ≤ ·) l
    have hs : (l.insertionSort (· ≤ ·)).Pairwise (· ≤ ·) := List.pairwise_insertionSort _ _
    unfold medianOf IsMedian
    simp only
    generalize l.insertionSort (· ≤ ·) = s at hp hs
    have hne : s ≠ [] := by
      intro h
      rw [h] at hp
      exact hl hp.nil_eq.symm
    have hlen : 0 < s.length := List.length_pos_iff.2 hne
    rw [if_neg (by simpa using hne)]
    have h2 : s[s.length / 2]? = some (s[s.length / 2]'(by omega)) := List.getElem?_eq_getElem _
    by_cases hodd : s.length % 2 = 1
    · rw [if_pos hodd]
      refine ⟨_, h2, s, s[s.length / 2]'(by omega), _, hp, hs, ?_, h2, ?_⟩
      · rw [show (s.length - 1) / 2 = s.length / 2 by omega]
        exact h2
      · ring
    · rw [if_neg hodd]
      have h1 : s[s.length / 2 - 1]? = some (s[s.length / 2 - 1]'(by omega)) := List.getElem?_eq_getElem _
      rw [h1, h2]
      refine ⟨_, rfl, s, s[s.length / 2 - 1]'(by omega), _, hp, hs, ?_, h2, rfl⟩
      rw [show (s.length - 1) / 2 = s.length / 2 - 1 by omega]
      exact h1

theorem isMedian_perm {a b : List Rat} (h : a.Perm b) {m : Rat} (hm : IsMedian a m) : IsMedian b m := by
  obtain ⟨s, x, y, h1, h2⟩ := hm
  exact ⟨s, x, y, h1.trans h, h2⟩

theorem gridOf_nodup (p : Int) (hp : 0 < p) (s : PSeries) : (gridOf p s).Nodup := by
  unfold gridOf
  split
  · rw [List.nodup_map_iff_inj_on List.nodup_range]
    intro x _ y _ h
    have : (x : Int) * p = y * p := by linarith
    exact_mod_cast mul_right_cancel₀ hp.ne' this
  · exact List.nodup_nil

theorem means_perm (s s' : PSeries) (hs : SortedSeries s) (hp : s.Perm s') :
    ((resampleMean 60000000000 s).filterMap Prod.snd).Perm (minuteMeans s') := by
  have h0 : (0 : Int) < 60000000000 := by norm_num
  unfold minuteMeans
  rw [resampleMean_eq _ h0, List.filterMap_map]
  have hg : (fun t => windowMean 60000000000 t s') = (fun t => windowMean 60000000000 t s) := by
    funext t
    rw [windowMean_perm hp]
  rw [hg]
  change ((gridOf 60000000000 s).filterMap (fun t => windowMean 60000000000 t s)).Perm _
  have hfm : ∀ l : List Int, l.filterMap (fun t => windowMean 60000000000 t s) =
      (l.filter (fun t => (windowMean 60000000000 t s).isSome)).filterMap (fun t => windowMean 60000000000 t s) := by
    intro l
    rw [List.filterMap_filter]
    apply List.filterMap_congr
    intro t _
    cases windowMean 60000000000 t s <;> rfl
  rw [hfm, hfm (List.dedup _)]
  apply List.Perm.filterMap
  apply (List.perm_ext_iff_of_nodup ((gridOf_nodup _ h0 s).filter _) ((List.nodup_dedup _).filter _)).2
  intro t
  rw [List.mem_filter, List.mem_filter, List.mem_dedup, List.mem_map]
  constructor
  · rintro ⟨h1, h2⟩
    refine ⟨?_, h2⟩
    have hd := mem_gridOf_dvd _ _ _ h1
    have hne : readingsIn 60000000000 t s ≠ [] := by
      intro he
      unfold windowMean at h2
      rw [if_pos he] at h2
      cases h2
    obtain ⟨v, hv⟩ := List.exists_mem_of_ne_nil _ hne
    unfold readingsIn at hv
    obtain ⟨r, hr, -⟩ := List.mem_filterMap.1 hv
    rw [List.mem_filter, decide_eq_true_eq] at hr
    refine ⟨r, hp.mem_iff.1 hr.1, ?_⟩
    exact (binOf_eq_iff _ r.1 t h0).2 ⟨hd, hr.2⟩
  · rintro ⟨⟨r, hr, rfl⟩, h2⟩
    exact ⟨bin_mem_gridOf _ h0 s hs r (hp.mem_iff.2 hr), h2⟩

theorem index_dvd {t : Int} (h : t ∈ iaweIndex) : (60000000000 : Int) ∣ t := by
  unfold iaweIndex iaweMinute at h
  obtain ⟨i, _, rfl⟩ := List.mem_map.1 h
  exact ⟨22894560 + i, by ring⟩

theorem iaweFill_spec {quantity : String} {s s' : PSeries} (hs : SortedSeries s) (hp : s.Perm s') {t : Int} (ht : t ∈ iaweIndex) :
    (∃ v, iaweFill quantity (resampleMean iaweMinute s) t = some v ∧ (∀ m, windowMean 60000000000 t s' = some m → v = m) ∧
      (windowMean 60000000000 t s' = none → (quantity = "power" → v = 0) ∧ (quantity ≠ "power" → IsMedian (minuteMeans s') v))) ∨
    (iaweFill quantity (resampleMean iaweMinute s) t = none ∧ quantity ≠ "power" ∧ minuteMeans s' = []) := by
  unfold iaweFill iaweMinute
  rw [at_resample _ (by norm_num) s hs t (index_dvd ht), windowMean_perm hp]
  cases hw : windowMean 60000000000 t s' with
  | some v => exact .inl ⟨v, rfl, fun m hm => by cases hm; rfl, fun h => by cases h⟩
  | none =>
    simp only
    by_cases hq : quantity = "power"
    · rw [if_pos hq]
      exact .inl ⟨0, rfl, fun m hm => (by cases hm), fun _ => ⟨fun _ => rfl, fun h => absurd hq h⟩⟩
    · rw [if_neg hq]
      have hperm := means_perm s s' hs hp
      rcases medianOf_spec ((resampleMean 60000000000 s).filterMap Prod.snd) with ⟨h1, h2⟩ | ⟨m, h1, h2⟩
      · rw [h1] at hperm
        exact .inr ⟨h2, hq, hperm.nil_eq.symm⟩
      · exact .inl ⟨m, h1, fun x hx => (by cases hx), fun _ => ⟨fun h => absurd h hq, fun _ => isMedian_perm hperm h2⟩⟩

theorem iaweTable_spec {sort : List (Int × List (Option Rat)) → List (Int × List (Option Rat))} (hsort : SortsByTime sort) (f : IaweFile) :
    (∃ t, iaweTable sort f = .ok t ∧ IaweGives f t) ∨ ∃ e, iaweTable sort f = .error e ∧ IaweRefused f e := by
  unfold iaweTable
  by_cases hts : "timestamp".toList ∉ f.header
  · rw [if_pos hts]
    exact .inr ⟨_, rfl, .inl ⟨hts, rfl⟩⟩
  rw [if_neg hts]
  rcases iaweColumns_spec (f.header.filter (fun c => decide (c ≠ "timestamp".toList))) with ⟨cols, k1, k2⟩ | ⟨k1, c, hc, k2⟩
  swap
  · rw [k1]
    rw [List.mem_filter, decide_eq_true_eq] at hc
    exact .inr ⟨_, rfl, .inr (.inl ⟨⟨c, hc.1, hc.2, k2⟩, rfl⟩)⟩
  rw [k1]
  simp only
  rw [usable_eq]
  obtain ⟨rows, hrows⟩ : ∃ rows, rows = sort (usableRows f) := ⟨_, rfl⟩
  rw [← hrows]
  have hsorted : ∀ j : Nat, SortedSeries (rows.map (fun r => (r.1, (r.2[j]?).join))) := by
    intro j
    unfold SortedSeries
    rw [List.pairwise_map, hrows]
    exact hsort.sorted _
  have hperm : ∀ j : Nat, (rows.map (fun r => (r.1, (r.2[j]?).join))).Perm (usableColumn f j) := by
    intro j
    unfold usableColumn
    rw [hrows]
    exact (hsort.perm _).map _
  obtain ⟨fill, hfill⟩ : ∃ fill : Int → List (Option Rat), fill = (fun t => (cols.zipIdx.map (fun c => (c.1.1,
      resampleMean iaweMinute (rows.map (fun r => (r.1, (r.2[c.2]?).join)))))).map (fun c => iaweFill c.1 c.2 t)) := ⟨_, rfl⟩
  have hlen : ∀ t, (fill t).length = cols.length := by
    intro t
    rw [hfill]
    simp
  have hget : ∀ t (j : Nat) c, cols[j]? = some c → (fill t)[j]? =
      some (iaweFill c.1 (resampleMean iaweMinute (rows.map (fun r => (r.1, (r.2[j]?).join)))) t) := by
    intro t j c hc
    rw [hfill]
    simp only [List.map_map, List.getElem?_map, List.getElem?_zipIdx, hc]
    simp
  change (∃ t, (if (iaweIndex.map (fun t => (t, _))).any _ then _ else _) = _ ∧ _) ∨ ∃ e, (if (iaweIndex.map (fun t => (t, _))).any _ then _ else _) = _ ∧ _
  rw [show (fun t => (t, (cols.zipIdx.map (fun c => (c.1.1,
      resampleMean iaweMinute (rows.map (fun r => (r.1, (r.2[c.2]?).join)))))).map (fun c => iaweFill c.1 c.2 t))) = (fun t => (t, fill t)) by rw [hfill]]
  by_cases hany : (iaweIndex.map (fun t => (t, fill t))).any (fun r => r.2.any Option.isNone) = true
  · rw [if_pos hany]
    refine .inr ⟨_, rfl, .inr (.inr ⟨?_, rfl⟩)⟩
    obtain ⟨r, hr, h⟩ := List.any_eq_true.1 hany
    obtain ⟨t, ht, rfl⟩ := List.mem_map.1 hr
    obtain ⟨x, hx, hn⟩ := List.any_eq_true.1 h
    obtain ⟨j, hj⟩ := List.mem_iff_getElem?.1 hx
    have hjl : j < cols.length := by
      rw [← hlen t]
      exact (List.getElem?_eq_some_iff.1 hj).1
    have hc : cols[j]? = some cols[j] := List.getElem?_eq_getElem hjl
    have hj' := hget t j _ hc
    simp only at hj
    rw [hj] at hj'
    simp only [Option.some.injEq] at hj'
    rcases iaweFill_spec (quantity := cols[j].1) (hsorted j) (hperm j) ht with ⟨v, h1, -⟩ | ⟨h1, h2, h3⟩
    · rw [hj', h1] at hn
      cases hn
    · have hhl : j < (f.header.filter (fun c => decide (c ≠ "timestamp".toList))).length := by rw [k2.length_eq]; exact hjl
      exact ⟨j, _, cols[j], List.getElem?_eq_getElem hhl, (List.forall₂_iff_get.1 k2).2 j hhl hjl, h2, h3⟩
  · rw [if_neg hany]
    have hall : ∀ t ∈ iaweIndex, none ∉ fill t := by
      intro t ht hn
      apply hany
      rw [List.any_eq_true]
      exact ⟨_, List.mem_map.2 ⟨t, ht, rfl⟩, List.any_eq_true.2 ⟨none, hn, rfl⟩⟩
    refine .inl ⟨_, rfl, by simpa using hts, k2, ?_, ?_⟩
    · simp only [List.map_map]
      unfold iaweIndex iaweMinute
      rw [List.map_map]
      apply List.map_congr_left
      intro i _
      simp only [Function.comp_apply]
      ring
    · intro r hr
      simp only [List.map_map] at hr
      obtain ⟨t, ht, rfl⟩ := List.mem_map.1 hr
      simp only [Function.comp_apply]
      have hv := filterMap_id_some (hall t ht)
      have hl2 : ((fill t).filterMap id).length = cols.length := by
        rw [← hlen t]
        conv_rhs => rw [← hv]
        rw [List.length_map]
      refine ⟨hl2, ?_⟩
      intro j c v hc hj
      have h1 : (fill t)[j]? = some (some v) := by
        rw [← hv, List.getElem?_map, hj]
        rfl
      rw [hget t j c hc] at h1
      simp only [Option.some.injEq] at h1
      rcases iaweFill_spec (quantity := c.1) (hsorted j) (hperm j) ht with ⟨v', e1, e2, e3⟩ | ⟨e1, -⟩
      · rw [h1] at e1
        cases e1
        exact ⟨e2, e3⟩
      · rw [h1] at e1
        cases e1

theorem iaweLoop_spec {sort : List (Int × List (Option Rat)) → List (Int × List (Option Rat))} (hsort : SortsByTime sort)
    (files : Nat → Option IaweFile) : ∀ (n chan : Nat) (st : RawStore (List Rat)), 1 ≤ chan →
    ∃ (st' : RawStore (List Rat)) (err : Option Err) (tables : List (RawTable (List Rat))), iaweLoop sort files n chan st = (st', err) ∧
      (∀ (i : Nat) t, tables[i]? = some t → st' (meterKey 1 (chan + i)) = some t ∧ ∃ f, files (chan + i) = some f ∧ IaweGives f t) ∧
      (∀ k, (∀ i, i < tables.length → k ≠ meterKey 1 (chan + i)) → st' k = st k) ∧
      (err = none → tables.length = n) ∧
      (∀ e, err = some e → tables.length < n ∧ ((files (chan + tables.length) = none ∧ e = .fileNotFound) ∨
        ∃ f, files (chan + tables.length) = some f ∧ IaweRefused f e)) := by
  intro n
  induction n with
  | zero =>
    intro chan st _
    exact ⟨st, none, [], rfl, fun i t h => by simp at h, fun k _ => rfl, fun _ => rfl, fun e h => by cases h⟩
  | succ n ih =>
    intro chan st hchan
    obtain ⟨k1, k2⟩ := key_numbers 1 chan (by omega) hchan
    unfold iaweLoop
    have k1' : Key.ofNumbers 1 (some (chan : Int)) = .ok ⟨((1 : Nat) : Int), some (chan : Int), none⟩ := k1
    rw [k1']
    simp only
    cases hf : files chan with
    | none =>
      refine ⟨st, some .fileNotFound, [], rfl, fun i t h => by simp at h, fun k _ => rfl, fun h => (by cases h), ?_⟩
      intro e he
      cases he
      exact ⟨by simp, .inl ⟨hf, rfl⟩⟩
    | some f =>
      simp only
      rcases iaweTable_spec hsort f with ⟨t, h1, h2⟩ | ⟨e, h1, h2⟩
      · rw [h1]
        simp only
        rw [k2]
        simp only
        obtain ⟨st', err, tables, i1, i2, i4, i5, i6⟩ := ih (chan + 1) (st.put (meterKey 1 chan) t) (by omega)
        refine ⟨st', err, t :: tables, i1, ?_, ?_, ?_, ?_⟩
        · intro i t' ht
          cases i with
          | zero =>
            simp only [List.getElem?_cons_zero, Option.some.injEq] at ht
            refine ⟨?_, f, hf, ht ▸ h2⟩
            rw [i4]
            · unfold RawStore.put
              rw [Nat.add_zero, if_pos rfl, ht]
            · intro j _ he
              have := (meterKey_inj (by omega) (by omega) (by omega) (by omega) he).2
              omega
          | succ i =>
            simp only [List.getElem?_cons_succ] at ht
            have := i2 i t' ht
            rwa [show chan + 1 + i = chan + (i + 1) by omega] at this
        · intro k hk
          rw [i4]
          · unfold RawStore.put
            rw [if_neg]
            have := hk 0 (by simp)
            rwa [Nat.add_zero] at this
          · intro i hi
            have := hk (i + 1) (by rw [List.length_cons]; omega)
            rwa [show chan + (i + 1) = chan + 1 + i by omega] at this
        · intro he
          rw [List.length_cons, i5 he]
        · intro e he
          obtain ⟨q1, q2⟩ := i6 e he
          rw [List.length_cons, show chan + (tables.length + 1) = chan + 1 + tables.length by omega]
          exact ⟨by omega, q2⟩
      · rw [h1]
        refine ⟨st, some e, [], rfl, fun i t h => by simp at h, fun k _ => rfl, fun h => (by cases h), ?_⟩
        intro e' he
        cases he
        exact ⟨by simp, .inr ⟨f, hf, h2⟩⟩

/-- C126. The files 1 to 11 are the meters 1 to 11 of building 1. Each has one row for each minute from 2013-07-13 to 2013-08-04, whatever the
times of the file are, with the mean of the usable readings of the minute, or, if there is none, 0 for power and the median for all else. Nothing
else is stored. The conversion ends at the first file that is not there or is refused, and what was stored before stays. -/
theorem C126_stored {sort : List (Int × List (Option Rat)) → List (Int × List (Option Rat))} (hsort : SortsByTime sort)
    (files : Nat → Option IaweFile) :
    ∃ (st : RawStore (List Rat)) (err : Option Err) (tables : List (RawTable (List Rat))), convertIawe sort (some files) = (st, err) ∧
      (∀ (i : Nat) t, tables[i]? = some t → st (meterKey 1 (i + 1)) = some t ∧ ∃ f, files (i + 1) = some f ∧ IaweGives f t) ∧
      (∀ k, (∀ i, i < tables.length → k ≠ meterKey 1 (i + 1)) → st k = none) ∧
      (err = none → tables.length = 11) ∧
      (∀ e, err = some e → tables.length < 11 ∧ ((files (tables.length + 1) = none ∧ e = .fileNotFound) ∨
        ∃ f, files (tables.length + 1) = some f ∧ IaweRefused f e)) := by
  obtain ⟨st, err, tables, h1, h2, h3, h4, h5⟩ := iaweLoop_spec hsort files 11 1 (fun _ => none) (by omega)
  refine ⟨st, err, tables, h1, ?_, ?_, h4, ?_⟩
  · intro i t ht
    have := h2 i t ht
    rwa [Nat.add_comm 1 i] at this
  · intro k hk
    apply h3
    intro i hi
    rw [Nat.add_comm 1 i]
    exact hk i hi
  · intro e he
    have := h5 e he
    rwa [Nat.add_comm 1 tables.length] at this

/-- C126. A user expects that what is stored was measured. It is not: a file without any row gives a meter with 0 W in every minute. -/
theorem C126_measured_counterexample : ¬ ∀ (sort : List (Int × List (Option Rat)) → List (Int × List (Option Rat))) (f : IaweFile)
    (t : RawTable (List Rat)), SortsByTime sort → iaweTable sort f = .ok t → ∀ r ∈ t.rows, ∃ r' ∈ f.rows, r.1 ≤ r'.1 ∧ r'.1 < r.1 + 60000000000 := by
  intro h
  haveI : Std.Total (fun a b : Int × List (Option Rat) => a.1 ≤ b.1) := ⟨fun a b => le_total a.1 b.1⟩
  haveI : IsTrans (Int × List (Option Rat)) (fun a b => a.1 ≤ b.1) := ⟨fun _ _ _ h1 h2 => le_trans h1 h2⟩
  have hs : SortsByTime (fun l : List (Int × List (Option Rat)) => l.insertionSort (fun a b => a.1 ≤ b.1)) :=
    ⟨fun l => List.perm_insertionSort _ _, fun l => List.pairwise_insertionSort _ _, fun l h => List.Pairwise.insertionSort_eq h⟩
  rcases iaweTable_spec hs ⟨["timestamp".toList, "W".toList], []⟩ with ⟨t, h1, h2⟩ | ⟨e, h1, h2⟩
  · have hlen : 0 < t.rows.length := by
      have := congrArg List.length h2.times
      rw [List.length_map, List.length_map, List.length_range] at this
      omega
    obtain ⟨r', hr', -⟩ := h _ _ t hs h1 _ (List.getElem_mem hlen)
    simp at hr'
  · rcases h2 with ⟨h3, -⟩ | ⟨⟨c, hc, hne, hm⟩, -⟩ | ⟨⟨j, c, m, hc, hm, hp, -⟩, -⟩
    · exact h3 (by simp)
    · simp only [List.mem_cons, List.not_mem_nil, or_false] at hc
      rcases hc with rfl | rfl
      · exact hne rfl
      · exact hm _ .watt
    · rw [show (["timestamp".toList, "W".toList].filter (fun c => decide (c ≠ "timestamp".toList))) = ["W".toList] by decide +kernel] at hc
      have hw : c = "W".toList := by
        have := List.mem_of_getElem? hc
        simpa using this
      rw [hw] at hm
      generalize hx : "W".toList = x at hm
      cases hm <;> first | (exact absurd rfl hp) | (revert hx; decide +kernel)

/-- C126. What was measured is there: the power of a minute with usable readings is their mean. -/
theorem C126_measured_partial {sort : List (Int × List (Option Rat)) → List (Int × List (Option Rat))} (hsort : SortsByTime sort)
    (f : IaweFile) (t : RawTable (List Rat)) (ht : iaweTable sort f = .ok t) (r : Int × List Rat) (hr : r ∈ t.rows) (j : Nat) (m : Rat)
    (hm : windowMean 60000000000 r.1 (usableColumn f j) = some m) (hj : j < t.columns.length) : r.2[j]? = some m := by
  rcases iaweTable_spec hsort f with ⟨t', h1, h2⟩ | ⟨e, h1, -⟩
  · rw [ht] at h1
    cases h1
    obtain ⟨q1, q2⟩ := h2.values r hr
    have hjr : j < r.2.length := by rw [q1]; exact hj
    rw [List.getElem?_eq_getElem hjr, (q2 j _ _ (List.getElem?_eq_getElem hj) (List.getElem?_eq_getElem hjr)).1 m hm]
  · rw [ht] at h1
    cases h1

/-! ### Examples -/

example : windowMean 60000000000 1373673600000000000
    (usableColumn ⟨["timestamp".toList, "W".toList, "V".toList], [(1373673601000000000, [some 4, some 220]), (1373673601000000000, [some 9, some 1]),
      (1373673602000000000, [none, some 230]), (1373673659000000000, [some 6, some 230]), (1373673660000000000, [some 8, some 240])]⟩ 0) = some 5 := by
  decide +kernel

example : medianOf [3, 1, 2] = some 2 ∧ medianOf [4, 1, 2, 3] = some (5 / 2) ∧ medianOf [] = none := by decide +kernel

end Nilmtk
