import Verif.Model.MeterPower
import Verif.Props.AllData
import Verif.Props.Measurement
import Verif.Props.MeterUptime
/-!
C114: from the files of REDD to the power series of a meter.
-/
namespace Nilmtk
open TF

/-! ### Specification -/

/-- Not before `a` and before `b`, as far as given. -/
def fromUntil (a b : Option Int) (t : Int) : Bool := a.all (fun s => decide (s ≤ t)) && b.all (fun e => decide (t < e))

/-- The sum of readings; missing if one of them is. -/
def addedUp (xs : List (Option Rat)) : Option Rat := if none ∈ xs then none else some ((xs.map (fun x => x.getD 0)).sum)

/-- The readings of a row in the chosen ones of its columns. -/
def chosenCells (columns chosen : List Col) (cells : List (Option Rat)) : List (Option Rat) :=
  ((columns.zip cells).filter (fun x => x.1 ∈ chosen)).map Prod.snd

/-! ### A row -/

theorem addedUp_cons (x : Rat) (xs : List (Option Rat)) : addedUp (some x :: xs) = (addedUp xs).map (x + ·) := by
  unfold addedUp
  by_cases h : none ∈ xs
  · rw [if_pos h, if_pos (by simp [h])]; rfl
  · rw [if_neg h, if_neg (by simp [h])]
    simp

theorem sumStrict_eq (xs : List (Option Rat)) : sumStrict xs = addedUp xs := by
  induction xs with
  | nil => rfl
  | cons x xs ih =>
    cases x with
    | none => simp [sumStrict, addedUp]
    | some x => rw [addedUp_cons, ← ih]; rfl

theorem addedUp_perm {xs ys : List (Option Rat)} (h : xs.Perm ys) : addedUp xs = addedUp ys := by
  unfold addedUp
  simp only [h.mem_iff]
  rw [(h.map (fun x => x.getD 0)).sum_eq]

theorem lookup_chosen (columns : List Col) (hn : columns.Nodup) (cells : List (Option Rat)) (hl : cells.length = columns.length)
    (q : Col → Bool) :
    (columns.filter q).map (fun c => ((columns.zip cells).lookup c).join) =
      ((columns.zip cells).filter (fun x => q x.1)).map Prod.snd := by
  induction columns generalizing cells with
  | nil => simp
  | cons c columns ih =>
    cases cells with
    | nil => simp at hl
    | cons v cells =>
      obtain ⟨h1, h2⟩ := List.nodup_cons.1 hn
      have hrest : ((columns.filter q).map (fun d => (((c :: columns).zip (v :: cells)).lookup d).join)) =
          (columns.filter q).map (fun d => ((columns.zip cells).lookup d).join) := by
        apply List.map_congr_left
        intro d hd
        have hne : d ≠ c := fun e => h1 (e ▸ (List.mem_filter.1 hd).1)
        simp only [List.zip_cons_cons, List.lookup_cons]
        rw [show (d == c) = false from by simpa using hne]
      have ih' := ih h2 cells (by simpa using hl)
      by_cases hq : q c = true
      · rw [List.filter_cons_of_pos hq, List.map_cons, hrest, ih', List.zip_cons_cons,
          List.filter_cons_of_pos (p := fun x : Col × Option Rat => q x.1) hq, List.map_cons]
        simp [List.lookup_cons]
      · rw [List.filter_cons_of_neg hq, hrest, ih', List.zip_cons_cons,
          List.filter_cons_of_neg (p := fun x : Col × Option Rat => q x.1) hq]

theorem loaded_perm (held asked : List Col) (hh : held.Nodup) (ha : asked.Nodup) :
    (loadedColumns held asked).Perm (held.filter (fun c => c ∈ asked)) := by
  rw [loadedColumns, List.perm_ext_iff_of_nodup (ha.filter _) (hh.filter _)]
  intro c
  simp only [List.mem_filter, decide_eq_true_eq]
  tauto

theorem powerCell_eq (held asked : List Col) (hh : held.Nodup) (ha : asked.Nodup) (hex : ∃ c ∈ asked, c ∈ held)
    (cells : List (Option Rat)) (hl : cells.length = held.length) :
    powerCell held asked cells = .power (addedUp (chosenCells held asked cells)) := by
  obtain ⟨c, h1, h2⟩ := hex
  have hne : loadedColumns held asked ≠ [] := by
    intro h
    have : c ∈ loadedColumns held asked := by simp [loadedColumns, h1, h2]
    rw [h] at this; cases this
  rw [powerCell, if_neg hne, sumStrict_eq]
  congr 1
  apply addedUp_perm
  refine ((loaded_perm held asked hh ha).map _).trans ?_
  rw [lookup_chosen held hh cells hl]
  exact List.Perm.refl _

theorem powerCell_none (held asked : List Col) (hex : ∀ c ∈ asked, c ∉ held) (cells : List (Option Rat)) :
    powerCell held asked cells = .noColumn := by
  rw [powerCell, if_pos]
  rw [loadedColumns, List.filter_eq_nil_iff]
  intro c hc
  simpa using hex c hc

/-! ### The columns -/

theorem convertToCols_power_nodup {ms : List Measurement} {ac : Req} {asked : List Col}
    (h : convertToCols ms (.one "power") ac none = .ok asked) : asked.Nodup := by
  have hav : (availableColumns ms).Nodup := List.nodup_dedup _
  have hac : ∀ r l, acTypeToColumns ms r = .ok l → l.Nodup := by
    intro r l hr
    cases r with
    | none => simp only [acTypeToColumns, Except.ok.injEq] at hr; subst hr; exact List.nodup_nil
    | one t =>
      simp only [acTypeToColumns, acTypeToColumns1] at hr
      split at hr
      · cases hr
      · cases hr; exact hav.filter _
    | many k =>
      simp only [acTypeToColumns] at hr
      cases hc : collect (acTypeToColumns1 ms) k with
      | error e => rw [hc] at hr; cases hr
      | ok x => rw [hc] at hr; cases hr; exact List.nodup_dedup _
  have hpq : ∀ l, pqToColumns ms (.one "power") = .ok l → l.Nodup := by
    intro l hr
    simp only [pqToColumns, pqToColumns1] at hr
    split at hr
    · cases hr
    · cases hr; exact hav.filter _
  unfold convertToCols at h
  rw [if_neg (by simp), if_neg (by simp [Req.truthy])] at h
  split at h
  · split at h
    · cases h
    · rename_i cols hb
      split at h
      · cases h
      · cases h
        simp only [bestColumns, bestColumns1] at hb
        split at hb
        · cases hb
        · split at hb
          · cases hb; exact List.nodup_nil
          · split at hb
            · cases hb
            · split at hb
              · cases hb; exact List.nodup_nil
              · cases hb; exact List.nodup_singleton _
  · unfold columnsFor at h
    split at h
    · cases h
    · rename_i acCols h1
      split at h
      · cases h
      · rename_i pqCols h2
        split at h
        · rename_i a q
          split at h
          · cases h
          · dsimp only at h
            split at h
            · cases h
            · cases h
              split at h1
              · cases hx : acTypeToColumns ms ac with
                | error e => rw [hx] at h1; cases h1
                | ok x => rw [hx] at h1; cases h1; exact (hac _ _ hx).filter _
              · cases h1
        · split at h
          · cases h
          · cases h
            split at h1
            · cases hx : acTypeToColumns ms ac with
              | error e => rw [hx] at h1; cases h1
              | ok x => rw [hx] at h1; cases h1; exact hac _ _ hx
            · cases h1
        · split at h
          · cases h
          · cases h
            split at h2
            · cases hx : pqToColumns ms (.one "power") with
              | error e => rw [hx] at h2; cases h2
              | ok x => rw [hx] at h2; cases h2; exact hpq _ hx
            · cases h2
        · cases h; exact List.nodup_nil

theorem best_power {ms : List Measurement} (ac : String) (hb : IsBest ms ("power", ac)) :
    convertToCols ms (.one "power") (.one "best") none = .ok [("power", ac)] := by
  obtain ⟨l, h1, h2⟩ := bestColumns1_spec ms "power" (by decide)
  have hshape : l = [] ∨ ∃ t, l = [("power", t)] := by
    unfold bestColumns1 at h1
    split at h1
    · cases h1
    · split at h1
      · cases h1; exact Or.inl rfl
      · split at h1
        · cases h1
        · split at h1
          · cases h1; exact Or.inl rfl
          · cases h1; exact Or.inr ⟨_, rfl⟩
  have hm := (h2 ("power", ac)).2 ⟨rfl, hb⟩
  have hl : l = [("power", ac)] := by
    rcases hshape with rfl | ⟨t, rfl⟩
    · cases hm
    · simp at hm; subst hm; rfl
  subst hl
  unfold convertToCols
  rw [if_neg (by simp), if_neg (by simp [Req.truthy]), if_pos rfl]
  simp only [bestColumns, h1]
  rfl

/-! ### The chunks -/

theorem trimHead_map {α β : Type} (f : α → β) (prev : Option Int) (c : List (Row α)) :
    trimHead prev (c.map (fun r => (r.1, f r.2))) = (trimHead prev c).map (fun r => (r.1, f r.2)) := by
  cases prev with
  | none => simp [trimHead]
  | some e =>
    cases c with
    | nil => rfl
    | cons r c =>
      simp only [trimHead, List.map_cons, List.head?_cons, List.tail_cons]
      split <;> rfl

theorem dropOverlaps_map {α β : Type} (f : α → β) (cs : List (List (Row α))) (prev : Option Int) :
    dropOverlaps prev (cs.map (fun c => c.map (fun r => (r.1, f r.2)))) =
      (dropOverlaps prev cs).map (fun c => c.map (fun r => (r.1, f r.2))) := by
  induction cs generalizing prev with
  | nil => rfl
  | cons c cs ih =>
    have hl : ((c.map (fun r => (r.1, f r.2))).getLast?.map Prod.fst) = c.getLast?.map Prod.fst := by
      rw [List.getLast?_map]
      cases c.getLast? <;> rfl
    simp only [List.map_cons, dropOverlaps, trimHead_map, hl, ih]

theorem allData_map {α β : Type} (f : α → β) (cs : List (List (Row α))) :
    powerSeriesAllData (cs.map (fun c => c.map (fun r => (r.1, f r.2)))) =
      (powerSeriesAllData cs).map (fun l => l.map (fun r => (r.1, f r.2))) := by
  have hf : (cs.map (fun c => c.map (fun r => (r.1, f r.2)))).filter (fun c => decide (0 < c.length)) =
      (cs.filter (fun c => decide (0 < c.length))).map (fun c => c.map (fun r => (r.1, f r.2))) := by
    rw [List.filter_map]
    congr 1
    apply List.filter_congr
    intro c _
    simp
  unfold powerSeriesAllData
  simp only [hf]
  cases cs.filter (fun c => decide (0 < c.length)) with
  | nil => rfl
  | cons c cs =>
    simp only [List.map_cons, Option.map_some]
    rw [← List.map_cons (f := fun c : List (Row α) => c.map (fun r => (r.1, f r.2))), dropOverlaps_map, List.map_flatten]

theorem meterPower_eq (t : RawTable (List (Option Rat))) (ms : List Measurement) (ac : Option Req) (asked : List Col)
    (hc : convertToCols ms (.one "power") (ac.getD (.one "best")) none = .ok asked) (window : TF)
    (sections : Option (List TF)) (cs : Int) :
    meterPowerAllData (some t) ms ac window sections cs =
      (powerSeriesAllDataGen (hdfLoad (some t.rows) window sections 0 cs).1).map
        (fun o => o.map (fun l => l.map (fun r => (r.1, powerCell t.columns asked r.2)))) := by
  unfold meterPowerAllData meterPowerSeries
  simp only [hc, Option.map_some, Option.getD_some]
  unfold powerSeriesAllDataGen
  cases (hdfLoad (some t.rows) window sections 0 cs).1.err with
  | some e => rfl
  | none =>
    simp only [Except.map]
    rw [← allData_map (powerCell t.columns asked), List.map_map, List.map_map]
    rfl

/-! ### The window -/

theorem window_blank (a b : Option Int) (hab : ∀ x y, a = some x → b = some y → x < y) :
    (mk' a b).intersection TF.blank = built a b false false := by
  have hi : interInclude (mk' a b) TF.blank = false := by
    cases a <;> cases b <;> simp [interInclude, mk', TF.blank, TF.stop]
  cases a with
  | none =>
    cases b with
    | none => rfl
    | some y =>
      show built none (some y) false (interInclude _ _) = _
      rw [hi]
  | some x =>
    cases b with
    | none => rfl
    | some y =>
      have h := hab x y rfl rfl
      show (if x ≥ y then _ else built (some x) (some y) false (interInclude _ _)) = _
      rw [if_neg (by omega), hi]

theorem mem_built (a b : Option Int) (t : Int) : Mem t (built a b false false) ↔ fromUntil a b t = true := by
  cases a <;> cases b <;> simp [Mem, built, TF.start, TF.stop, fromUntil]

theorem blank_load {α : Type} (rows : List (Row α)) (hinc : Increasing rows) (a b : Option Int)
    (hab : ∀ x y, a = some x → b = some y → x < y) (cs : Int) (hcs : 0 < cs) :
    powerSeriesAllDataGen (hdfLoad (some rows) (mk' a b) none 0 cs).1 =
      if a = none ∧ b = none ∧ 2 ≤ rows.length ∧ cs ∣ (rows.length : Int) - 1 then .error .valueError
      else .ok (if (rows.filter (fun r => fromUntil a b r.1)).length < 2 then none
        else some (rows.filter (fun r => fromUntil a b r.1))) := by
  have hw := window_blank a b hab
  have hp : ∀ t, fromUntil a b t = true ↔ Mem t ((mk' a b).intersection TF.blank) := by
    intro t; rw [hw, mem_built]
  have hdef : (hdfLoad (some rows) (mk' a b) none 0 cs) = hdfLoad (some rows) (mk' a b) (some [TF.blank]) 0 cs := rfl
  by_cases h2 : 2 ≤ (rows.filter (fun r => fromUntil a b r.1)).length
  · have herr := C14_load_error_iff rows hinc (mk' a b) TF.blank 0 cs hcs (fromUntil a b) hp h2
    rw [hw] at herr
    have hlen : 2 ≤ rows.length := le_trans h2 (List.length_filter_le _ _)
    by_cases hc : a = none ∧ b = none ∧ cs ∣ (rows.length : Int) - 1
    · rw [if_pos ⟨hc.1, hc.2.1, hlen, hc.2.2⟩]
      rw [if_pos (by obtain ⟨rfl, rfl, h⟩ := hc; exact ⟨rfl, rfl, h⟩)] at herr
      apply C18_error_propagates
      rw [hdef]
      unfold hdfLoad
      simp only [Option.getD_some, loadSections, herr]
    · rw [if_neg (fun h => hc ⟨h.1, h.2.1, h.2.2.2⟩)]
      rw [if_neg (by
        rintro ⟨h3, h4, h5⟩
        exact hc ⟨h3, h4, h5⟩)] at herr
      rw [hdef, C18_all_data_partial rows hinc (mk' a b) [TF.blank] 0 cs hcs (fun _ => fromUntil a b) (by
        intro s hs t
        rw [List.mem_singleton.1 hs]
        exact hp t) (List.pairwise_singleton _ _) (by
        intro s _
        omega) (by rw [loadSections_one _ _ _ _ _ herr]; exact herr)]
      have hany : rows.filter (fun r => [TF.blank].any (fun _ => fromUntil a b r.1)) = rows.filter (fun r => fromUntil a b r.1) := by
        apply List.filter_congr
        intro r _
        simp
      simp only [hany]
      rw [if_neg (show ¬ _ < 2 by omega), if_neg]
      rw [List.isEmpty_iff]
      intro h
      rw [h] at h2
      simp at h2
  · rw [if_neg, if_pos (by omega)]
    · have hload : ∃ tf, (loadSection (some rows) (mk' a b) 0 cs TF.blank).1 = ⟨[], none⟩ ∨
          (loadSection (some rows) (mk' a b) 0 cs TF.blank).1 = ⟨[⟨[], tf, none⟩], none⟩ := by
        by_cases hb : a = none ∧ b = none
        · obtain ⟨rfl, rfl⟩ := hb
          have hall : rows.filter (fun r => fromUntil none none r.1) = rows := by
            rw [List.filter_eq_self]; intro r _; rfl
          rw [hall] at h2
          refine ⟨TF.blank, Or.inr ?_⟩
          unfold loadSection
          rw [hw]
          show (if rows.length ≤ 1 then _ else _ : Gen (Chunk α) × Bool).1 = _
          rw [if_pos (by omega)]
        · exact ⟨_, section_few_any rows hinc (mk' a b) TF.blank 0 cs hcs (fromUntil a b) hp (by rw [hw]; rfl)
            (by rw [hw]; exact hb) (by omega)⟩
      obtain ⟨tf, hload⟩ := hload
      have herr : (loadSection (some rows) (mk' a b) 0 cs TF.blank).1.err = none := by
        rcases hload with h | h <;> rw [h]
      rw [hdef, loadSections_one _ _ _ _ _ herr]
      rcases hload with h | h <;> rw [h] <;> rfl
    · rintro ⟨rfl, rfl, h3, _⟩
      have hall : rows.filter (fun r => fromUntil none none r.1) = rows := by
        rw [List.filter_eq_self]; intro r _; rfl
      rw [hall] at h2
      exact h2 h3

/-! ### The claims -/

/-- C114. All the power data of a meter: one value for every row of its table in the window (from its start until before its end),
in the order of time, which is the sum of the readings in the columns chosen and missing if one of them is; whatever the chunk
size. `_partial`: a lone row in the window is lost, and without a window the load fails when the chunks leave one row. -/
theorem C114_power_partial (t : RawTable (List (Option Rat))) (hinc : Increasing t.rows) (hcols : t.columns.Nodup)
    (hcells : ∀ r ∈ t.rows, r.2.length = t.columns.length) (ms : List Measurement) (ac : Option Req) (asked : List Col)
    (hc : convertToCols ms (.one "power") (ac.getD (.one "best")) none = .ok asked) (hex : ∃ c ∈ asked, c ∈ t.columns)
    (a b : Option Int) (hab : ∀ x y, a = some x → b = some y → x < y) (cs : Int) (hcs : 0 < cs)
    (inside : List (Row (List (Option Rat)))) (hin : inside = t.rows.filter (fun r => fromUntil a b r.1)) :
    meterPowerAllData (some t) ms ac (mk' a b) none cs =
      if a = none ∧ b = none ∧ 2 ≤ t.rows.length ∧ cs ∣ (t.rows.length : Int) - 1 then .error .valueError
      else .ok (if inside.length < 2 then none
        else some (inside.map (fun r => (r.1, .power (addedUp (chosenCells t.columns asked r.2)))))) := by
  rw [meterPower_eq t ms ac asked hc, blank_load t.rows hinc a b hab cs hcs, ← hin]
  by_cases h : a = none ∧ b = none ∧ 2 ≤ t.rows.length ∧ cs ∣ (t.rows.length : Int) - 1
  · rw [if_pos h, if_pos h]; rfl
  · rw [if_neg h, if_neg h]
    simp only [Except.map]
    congr 1
    by_cases h2 : inside.length < 2
    · rw [if_pos h2, if_pos h2]; rfl
    · rw [if_neg h2, if_neg h2, Option.map_some]
      congr 1
      apply List.map_congr_left
      intro r hr
      rw [hin] at hr
      rw [powerCell_eq t.columns asked hcols (convertToCols_power_nodup hc) hex r.2 (hcells r (List.mem_filter.1 hr).1)]

/-- C114. By default the reading of the best AC type which the device has for power. -/
theorem C114_best_partial (t : RawTable (List (Option Rat))) (hinc : Increasing t.rows) (hcols : t.columns.Nodup)
    (hcells : ∀ r ∈ t.rows, r.2.length = t.columns.length) (ms : List Measurement) (ac : String)
    (hb : IsBest ms ("power", ac)) (i : Nat) (hi : t.columns[i]? = some ("power", ac)) (a b : Option Int)
    (hab : ∀ x y, a = some x → b = some y → x < y) (cs : Int) (hcs : 0 < cs)
    (inside : List (Row (List (Option Rat)))) (hin : inside = t.rows.filter (fun r => fromUntil a b r.1)) :
    meterPowerAllData (some t) ms none (mk' a b) none cs =
      if a = none ∧ b = none ∧ 2 ≤ t.rows.length ∧ cs ∣ (t.rows.length : Int) - 1 then .error .valueError
      else .ok (if inside.length < 2 then none else some (inside.map (fun r => (r.1, .power (r.2[i]?).join)))) := by
  rw [C114_power_partial t hinc hcols hcells ms none [("power", ac)] (best_power ac hb)
    ⟨_, List.mem_singleton_self _, List.mem_of_getElem? hi⟩ a b hab cs hcs inside hin]
  have hone : ∀ (columns : List Col) (cells : List (Option Rat)) (i : Nat), columns.Nodup → cells.length = columns.length →
      columns[i]? = some ("power", ac) → addedUp (chosenCells columns [("power", ac)] cells) = (cells[i]?).join := by
    intro columns
    induction columns with
    | nil => intro cells i _ _ h; simp at h
    | cons c columns ih =>
      intro cells i hn hl h
      obtain ⟨h1, h2⟩ := List.nodup_cons.1 hn
      cases cells with
      | nil => simp at hl
      | cons v cells =>
        cases i with
        | zero =>
          simp only [List.getElem?_cons_zero, Option.some.injEq] at h
          subst h
          have hnone : (columns.zip cells).filter (fun x => x.1 ∈ [("power", ac)]) = [] := by
            rw [List.filter_eq_nil_iff]
            intro x hx hm
            simp only [List.mem_singleton, decide_eq_true_eq] at hm
            exact h1 (hm ▸ (List.of_mem_zip hx).1)
          unfold chosenCells
          rw [List.zip_cons_cons, List.filter_cons_of_pos (by simp), hnone]
          cases v <;> simp [addedUp]
        | succ i =>
          have hne : c ≠ ("power", ac) := fun e => h1 (e ▸ List.mem_of_getElem? (by simpa using h))
          have := ih cells i h2 (by simpa using hl) (by simpa using h)
          rw [List.getElem?_cons_succ, ← this]
          unfold chosenCells
          rw [List.zip_cons_cons, List.filter_cons_of_neg (by simpa using hne)]
  have hrows : inside.map (fun r => (r.1, PowerCell.power (addedUp (chosenCells t.columns [("power", ac)] r.2)))) =
      inside.map (fun r => (r.1, PowerCell.power (r.2[i]?).join)) := by
    apply List.map_congr_left
    intro r hr
    rw [hin] at hr
    rw [hone t.columns r.2 i hcols (hcells r (List.mem_filter.1 hr).1) hi]
  rw [hrows]

/-- C114. A device without a power measurement of a known AC type has no power series: `MeasurementError`, whatever the table. -/
theorem C114_no_power (t : Option (RawTable (List (Option Rat)))) (ms : List Measurement)
    (hms : ∀ m ∈ ms, m.pq ∈ physicalQuantities) (hno : ∀ ac, ¬ IsBest ms ("power", ac)) (window : TF)
    (sections : Option (List TF)) (cs : Int) :
    meterPowerAllData t ms none window sections cs = .error .measurementError := by
  rcases C36_best ms (.one "power") hms ⟨by simp, by simp⟩ (by right; decide) with ⟨cols, h1, h2, h3⟩ | ⟨h1, _⟩
  · exfalso
    obtain ⟨c, hc⟩ := List.exists_mem_of_ne_nil cols h2
    obtain ⟨h4, h5⟩ := (h3 c).1 hc
    have : c.1 = "power" := by
      rcases h4 with h4 | h4
      · exact absurd h4 (by decide)
      · exact h4
    obtain ⟨q, ty⟩ := c
    simp only at this
    subst this
    exact hno ty h5
  · unfold meterPowerAllData meterPowerSeries
    simp only [Option.getD_none, h1]
    rfl

theorem sections_load {α : Type} (rows : List (Row α)) (hinc : Increasing rows) (window : TF) (cs : Int) (hcs : 0 < cs)
    (secs : List TF) (p : TF → Int → Bool) (hp : ∀ s ∈ secs, ∀ t, p s t = true ↔ Mem t (window.intersection s))
    (hb : ∀ s ∈ secs, (window.intersection s).empty = false → (window.intersection s).start ≠ none) :
    (hdfLoad (some rows) window (some secs) 0 cs).1.err = none := by
  have hone : ∀ s ∈ secs, (loadSection (some rows) window 0 cs s).1.err = none := by
    intro s hs
    rcases Bool.eq_false_or_eq_true (window.intersection s).empty with he | he
    · unfold loadSection
      simp only [he, if_true]
    · have hb' := hb s hs he
      by_cases h2 : 2 ≤ (rows.filter (fun r => p s r.1)).length
      · rw [C14_load_error_iff rows hinc window s 0 cs hcs (p s) (hp s hs) h2, if_neg (fun h => hb' h.1)]
      · rcases section_few_any rows hinc window s 0 cs hcs (p s) (hp s hs) he (fun h => hb' h.1) (by omega) with h | h <;> rw [h]
  unfold hdfLoad
  simp only [Option.getD_some]
  generalize true = flag
  clear hp hb
  induction secs generalizing flag with
  | nil => rfl
  | cons s secs ih =>
    have h1 := hone s (by simp)
    have h2 := ih (fun x hx => hone x (List.mem_cons_of_mem _ hx)) (flag && !(loadSection (some rows) window 0 cs s).2)
    simp only [loadSections, h1, Gen.append]
    exact h2

/-- C114. With sections given which are apart and in order, all the power data are one value for every row of the table in the
window and in one of the sections, in the order of time, whatever the chunk size. `_partial`: no section may hold exactly one row,
which would be lost. -/
theorem C114_sections_partial (t : RawTable (List (Option Rat))) (hinc : Increasing t.rows) (hcols : t.columns.Nodup)
    (hcells : ∀ r ∈ t.rows, r.2.length = t.columns.length) (ms : List Measurement) (ac : Option Req) (asked : List Col)
    (hc : convertToCols ms (.one "power") (ac.getD (.one "best")) none = .ok asked) (hex : ∃ c ∈ asked, c ∈ t.columns)
    (a b : Option Int) (l : List (Int × Int)) (hl : ∀ x ∈ l, x.1 < x.2)
    (hord : l.Pairwise (fun x y => x.2 ≤ y.1)) (cs : Int) (hcs : 0 < cs)
    (h1 : ∀ x ∈ l, (t.rows.filter (fun r => fromUntil a b r.1 && fromUntil (some x.1) (some x.2) r.1)).length ≠ 1)
    (inside : List (Row (List (Option Rat))))
    (hin : inside = t.rows.filter (fun r => fromUntil a b r.1 && l.any (fun x => fromUntil (some x.1) (some x.2) r.1))) :
    meterPowerAllData (some t) ms ac (mk' a b) (some (l.map (fun x => mk' (some x.1) (some x.2)))) cs =
      .ok (if inside.isEmpty then none
        else some (inside.map (fun r => (r.1, .power (addedUp (chosenCells t.columns asked r.2)))))) := by
  have hmem : ∀ (a b : Option Int) t, Mem t (mk' a b) ↔ fromUntil a b t = true := by
    intro a b t
    cases a <;> cases b <;> simp [Mem, mk', TF.start, TF.stop, fromUntil]
  set secs := l.map (fun x => mk' (some x.1) (some x.2)) with hsecs
  set p : TF → Int → Bool := fun s t => fromUntil a b t && fromUntil s.start s.stop t with hpdef
  have hp : ∀ s ∈ secs, ∀ t, p s t = true ↔ Mem t ((mk' a b).intersection s) := by
    intro s hs t
    rw [hsecs, List.mem_map] at hs
    obtain ⟨x, hx, rfl⟩ := hs
    rw [C02_intersection_halfopen _ _ _ rfl rfl, hmem, hmem, hpdef]
    simp only [Bool.and_eq_true]
    rfl
  have herr := sections_load t.rows hinc (mk' a b) cs hcs secs p hp (by
    intro s hs he
    rw [hsecs, List.mem_map] at hs
    obtain ⟨x, hx, rfl⟩ := hs
    have hst : interStart (mk' a b) (mk' (some x.1) (some x.2)) ≠ none := by
      cases a <;> simp [interStart, mk', TF.start]
    unfold intersection at he ⊢
    rw [if_neg (by simp [mk'])] at he ⊢
    revert he
    cases hi : interStart (mk' a b) (mk' (some x.1) (some x.2)) with
    | none => exact absurd hi hst
    | some u =>
      cases hj : interEnd (mk' a b) (mk' (some x.1) (some x.2)) with
      | none => intro _; simp [built, TF.start]
      | some v =>
        dsimp only
        split
        · intro h; cases h
        · intro _; simp [built, TF.start])
  rw [meterPower_eq t ms ac asked hc]
  rw [C18_all_data_partial t.rows hinc (mk' a b) secs 0 cs hcs p hp (by
    rw [hsecs, List.pairwise_map]
    refine hord.imp ?_
    intro x y hxy u v hu hv
    simp [hpdef, fromUntil, mk', TF.start, TF.stop] at hu hv
    omega) (by
    intro s hs
    rw [hsecs, List.mem_map] at hs
    obtain ⟨x, hx, rfl⟩ := hs
    exact h1 x hx) herr]
  have hrows : t.rows.filter (fun r => secs.any (fun s => p s r.1)) = inside := by
    rw [hin]
    apply List.filter_congr
    intro r _
    rw [hsecs, List.any_map, Bool.eq_iff_iff]
    simp only [hpdef, List.any_eq_true, Function.comp, Bool.and_eq_true, mk', TF.start, TF.stop, if_true]
    constructor
    · rintro ⟨x, hx, h3, h4⟩; exact ⟨h3, x, hx, h4⟩
    · rintro ⟨h3, x, hx, h4⟩; exact ⟨x, hx, h3, h4⟩
  simp only [hrows, Except.map]
  congr 1
  by_cases h2 : inside.isEmpty
  · rw [if_pos h2, if_pos h2]; rfl
  · rw [if_neg h2, if_neg h2, Option.map_some]
    congr 1
    apply List.map_congr_left
    intro r hr
    rw [hin] at hr
    rw [powerCell_eq t.columns asked hcols (convertToCols_power_nodup hc) hex r.2 (hcells r (List.mem_filter.1 hr).1)]

theorem wide_asTable (ac : String) (l : List (Int × Rat)) :
    wide (asTable ac l) = ⟨[("power", ac)], l.map (fun r => (r.1, [some r.2]))⟩ := by
  unfold wide asTable
  simp only [List.map_map]
  rfl

/-- C114. From the files to the power series: after converting REDD, all the power data of a meter are the readings in the file of
its channel which are within the window, in the order of time, whatever the order of the lines and the chunk size. -/
theorem C114_redd_partial {sort : List (Int × Option Rat) → List (Int × Option Rat)} (hs : SortsByTime sort)
    {tree : RawTree (Option Rat)} (hx : ExpectedTree tree) (house chan : Nat) (hh : house ≤ 9) (hc : chan ≤ 99)
    (file order : List (Int × Rat)) (hf : ChannelFile tree house chan (asFile file)) (hp : order.Perm file)
    (hord : order.Pairwise (fun x y => x.1 < y.1)) (ms : List Measurement)
    (hb : IsBest ms ("power", if chan = 1 ∨ chan = 2 then "apparent" else "active")) (a b : Option Int)
    (hab : ∀ x y, a = some x → b = some y → x < y)
    (inside : List (Int × Rat)) (hin : inside = order.filter (fun r => fromUntil a b (r.1 * 1000000000)))
    (cs : Int) (hcs : 0 < cs) :
    meterPowerAllData (((convertRedd sort (some tree)).1 (meterKey house chan)).map wide) ms none (mk' a b) none cs =
      if a = none ∧ b = none ∧ 2 ≤ file.length ∧ cs ∣ (file.length : Int) - 1 then .error .valueError
      else .ok (if inside.length < 2 then none
        else some (inside.map (fun r => (r.1 * 1000000000, .power (some r.2))))) := by
  rw [redd_table hs hx house chan hh hc file order hf hp hord, Option.map_some, wide_asTable]
  have hfil : ((order.map (fun r => (r.1 * 1000000000, r.2))).map (fun r => (r.1, [some r.2]))).filter
      (fun r => fromUntil a b r.1) = inside.map (fun r => (r.1 * 1000000000, [some r.2])) := by
    rw [List.map_map, List.filter_map, hin]; rfl
  rw [C114_best_partial _ (by
    unfold Increasing
    rw [List.pairwise_map, List.pairwise_map]
    exact hord.imp (fun h => by simp only; omega)) (List.nodup_singleton _) (by
    intro r hr
    obtain ⟨x, _, rfl⟩ := List.mem_map.1 hr
    rfl) ms _ hb 0 rfl a b hab cs hcs _ hfil.symm]
  simp only [List.length_map, hp.length_eq, List.map_map]
  rfl

/-- C114. The energy of a meter is that of all its power data, when there is no window and the device has no limits. -/
theorem C114_energy (ms : List Measurement) (msp : Rat) (ac : String) (hac : ac = "active" ∨ ac = "apparent" ∨ ac = "reactive")
    (hlim : LimitedBy ms ("power", ac) id) (hb : IsBest ms ("power", ac)) (l : List (Int × Rat))
    (hinc : l.Pairwise (fun x y => x.1 < y.1)) (h2 : 2 ≤ l.length) (cs cs' : Int) (hcs : 0 < cs) (hcs' : 0 < cs')
    (series : List (Row PowerCell))
    (h : meterPowerAllData (some (wide (asTable ac l))) ms none TF.blank none cs = .ok (some series)) :
    ∃ readings : List (Row (Option Rat)), series = readings.map (fun r => (r.1, .power r.2)) ∧
      meterTotalEnergy (some (asTable ac l)) ms msp TF.blank none cs' = .ok [(acNamed ac, energyForPowerSeries msp readings)] := by
  rw [wide_asTable] at h
  have hfil : (l.map (fun r => (r.1, [some r.2]))).filter (fun r => fromUntil none none r.1) =
      l.map (fun r => (r.1, [some r.2])) := by
    rw [List.filter_eq_self]; intro r _; rfl
  have hp := C114_best_partial ⟨[("power", ac)], l.map (fun r => (r.1, [some r.2]))⟩ (by
    unfold Increasing
    rw [List.pairwise_map]
    exact hinc) (List.nodup_singleton _) (by
    intro r hr
    obtain ⟨x, _, rfl⟩ := List.mem_map.1 hr
    rfl) ms ac hb 0 rfl none none (by intro x y hx; cases hx) cs hcs _ hfil.symm
  have hp' := h.symm.trans hp
  split at hp'
  · cases hp'
  · rw [if_neg (by rw [List.length_map]; omega)] at hp'
    simp only [Except.ok.injEq, Option.some.injEq] at hp'
    refine ⟨l.map (fun r => (r.1, some r.2)), ?_, ?_⟩
    · rw [hp', List.map_map, List.map_map]; rfl
    · have he := C112_meter_partial ms msp ac hac id hlim l hinc h2 none none cs' hcs'
      have hall : l.filter (fun r => between none none r.1) = l := by
        rw [List.filter_eq_self]; intro r _; rfl
      rw [hall, if_neg (by omega)] at he
      have he' : meterTotalEnergy (some (asTable ac l)) ms msp TF.blank none cs' =
        .ok [(acNamed ac, kwhOf msp (l.map (fun r => (r.1, id r.2))))] := he
      rw [he', energy_kwh]
      have hd : ∀ k : List (Int × Rat), dropna (k.map (fun r => (r.1, some r.2))) = k.map (fun r => (r.1, id r.2)) := by
        intro k
        induction k with
        | nil => rfl
        | cons r k ih =>
          have h3 : dropna ((r :: k).map (fun r => (r.1, some r.2))) = r :: dropna (k.map (fun r => (r.1, some r.2))) := rfl
          rw [h3, ih]; rfl
      rw [hd]

/-- C114. A meter without a table: `KeyError`. -/
theorem C114_no_table (ms : List Measurement) (ac : Option Req) (asked : List Col)
    (hc : convertToCols ms (.one "power") (ac.getD (.one "best")) none = .ok asked) (a b : Option Int)
    (hab : ∀ x y, a = some x → b = some y → x < y) (cs : Int) :
    meterPowerAllData none ms ac (mk' a b) none cs = .error .keyError := by
  unfold meterPowerAllData meterPowerSeries
  simp only [hc]
  apply C18_error_propagates
  have h : (loadSection (none : Option (List (Row (List (Option Rat))))) (mk' a b) 0 cs TF.blank).1 = Gen.raise .keyError := by
    unfold loadSection
    rw [window_blank a b hab]
    rfl
  show (hdfLoad none (mk' a b) none 0 cs).1.err = _
  unfold hdfLoad
  simp only [Option.getD_none, loadSections, h, Gen.raise]

/-- C114. What is wrong with the AC type or measurement asked for is raised, whatever the table. -/
theorem C114_request_error (t : Option (RawTable (List (Option Rat)))) (ms : List Measurement) (ac : Option Req) (e : Err)
    (hc : convertToCols ms (.one "power") (ac.getD (.one "best")) none = .error e) (window : TF)
    (sections : Option (List TF)) (cs : Int) : meterPowerAllData t ms ac window sections cs = .error e := by
  unfold meterPowerAllData meterPowerSeries
  simp only [hc]
  rfl

/-- C114. If the table has none of the columns asked for, the times of the rows in the window come without values. -/
theorem C114_no_column (t : RawTable (List (Option Rat))) (hinc : Increasing t.rows) (ms : List Measurement) (ac : Option Req)
    (asked : List Col) (hc : convertToCols ms (.one "power") (ac.getD (.one "best")) none = .ok asked)
    (hex : ∀ c ∈ asked, c ∉ t.columns) (a b : Option Int) (hab : ∀ x y, a = some x → b = some y → x < y)
    (hb : ¬ (a = none ∧ b = none)) (cs : Int) (hcs : 0 < cs) (inside : List (Row (List (Option Rat))))
    (hin : inside = t.rows.filter (fun r => fromUntil a b r.1)) (h2 : 2 ≤ inside.length) :
    meterPowerAllData (some t) ms ac (mk' a b) none cs = .ok (some (inside.map (fun r => (r.1, .noColumn)))) := by
  rw [meterPower_eq t ms ac asked hc, blank_load t.rows hinc a b hab cs hcs, ← hin, if_neg (fun h => hb ⟨h.1, h.2.1⟩),
    if_neg (by omega)]
  simp only [Except.map, Option.map_some]
  congr 2
  apply List.map_congr_left
  intro r _
  rw [powerCell_none _ _ hex]

/-- C114. If the table has none of the columns chosen the times come without values. -/
theorem C114_other_column_counterexample :
    meterPowerAllData (some ⟨[("power", "apparent")], [(0, [some 1]), (10, [some 2])]⟩) [⟨"power", some "active", none, none⟩]
      none TF.blank none 5 = .ok (some [(0, .noColumn), (10, .noColumn)]) := by decide +kernel

/-- C114, limits: a lone row in the window is lost. -/
theorem C114_lone_row_counterexample :
    meterPowerAllData (some ⟨[("power", "active")], [(0, [some 1]), (10, [some 2])]⟩) [⟨"power", some "active", none, none⟩]
      none (mk' (some 5) none) none 5 = .ok none := by decide +kernel

/-- C114, limits: without a window the load fails when the chunks leave one row. -/
theorem C114_chunk_size_counterexample :
    meterPowerAllData (some ⟨[("power", "active")], [(0, [some 1]), (10, [some 2]), (20, [some 2])]⟩)
      [⟨"power", some "active", none, none⟩] none TF.blank none 2 = .error .valueError := by decide +kernel

/-- C114. Asked for several AC types, the meter gives their sum, and it is missing where one of them is. -/
example :
    meterPowerAllData (some ⟨[("power", "active"), ("voltage", ""), ("power", "reactive")],
        [(0, [some 1, some 230, some 2]), (10, [some 3, none, none]), (20, [some 5, none, some 1])]⟩)
      [⟨"power", some "reactive", none, none⟩, ⟨"power", some "active", none, none⟩]
      (some (.many ["active", "reactive"])) (mk' (some 0) none) none 2 =
      .ok (some [(0, .power (some 3)), (10, .power none), (20, .power (some 6))]) := by decide +kernel

/-- The hypotheses of C114 for a table with two columns and a window. -/
example : ∃ (t : RawTable (List (Option Rat))) (ms : List Measurement), Increasing t.rows ∧ t.columns.Nodup ∧
    (∀ r ∈ t.rows, r.2.length = t.columns.length) ∧ IsBest ms ("power", "active") ∧
    t.columns[1]? = some ("power", "active") ∧
    meterPowerAllData (some t) ms none (mk' (some 10) (some 40)) none 2 =
      .ok (some [(10, .power (some 4)), (20, .power none), (30, .power (some 8))]) := by
  refine ⟨⟨[("voltage", ""), ("power", "active")],
    [(0, [some 1, some 2]), (10, [some 3, some 4]), (20, [some 5, none]), (30, [none, some 8]), (40, [some 9, some 10])]⟩,
    [⟨"power", some "active", none, none⟩, ⟨"voltage", none, none, none⟩], by unfold Increasing; decide, by decide, by decide,
    ?_, rfl, by decide +kernel⟩
  refine ⟨by decide, by decide, ?_⟩
  intro u hu hk
  have : u = "active" := by
    simp [availableColumns] at hu
    exact hu
  subst this
  exact le_refl _

/-- The hypotheses of `C114_sections_partial`: two sections, in the second of which there is nothing. -/
example : meterPowerAllData (some ⟨[("power", "active")], [(0, [some 1]), (10, [some 2]), (20, [some 3])]⟩)
    [⟨"power", some "active", none, none⟩] none TF.blank (some [mk' (some 0) (some 20), mk' (some 25) (some 30)]) 1 =
    .ok (some [(0, .power (some 1)), (10, .power (some 2))]) := by decide +kernel

/-- A device without power. -/
example : ∀ ac, ¬ IsBest [⟨"voltage", none, none, none⟩] ("power", ac) := by
  intro ac h
  have := h.1
  simp [availableColumns] at this

theorem exMeasures_best : IsBest exMeasures ("power", "active") := by
  refine ⟨by decide, by decide, ?_⟩
  intro u hu _
  have : u = "active" := by simpa [exMeasures, availableColumns] using hu
  subst this
  exact le_refl _

/-- Of a file out of order, the readings before 50 s; they are not limited. -/
example {sort : List (Int × Option Rat) → List (Int × Option Rat)} (hs : SortsByTime sort) (cs : Int) (hcs : 0 < cs) :
    meterPowerAllData (((convertRedd sort (some energyTree)).1 (meterKey 2 3)).map wide) exMeasures none
      (mk' none (some 50000000000)) none cs =
      .ok (some [(3000000000, .power (some 7200000)), (5000000000, .power (some 20000000)), (7000000000, .power (some 0))]) := by
  rw [C114_redd_partial hs energyTree_expected 2 3 (by decide) (by decide)
    [(7, 0), (3, 7200000), (5, 20000000), (100, 1)] [(3, 7200000), (5, 20000000), (7, 0), (100, 1)]
    ⟨[("channel_3.dat".toList, some [(7, some 0), (3, some 7200000), (5, some 20000000), (100, some 1)])], by decide +kernel,
      by decide +kernel⟩ (by decide +kernel) (by decide +kernel) exMeasures
    exMeasures_best none (some 50000000000) (by intro x y h; cases h) [(3, 7200000), (5, 20000000), (7, 0)] (by decide +kernel) cs hcs]
  rfl

/-- The hypotheses of `C114_energy`. -/
example : LimitedBy [⟨"power", some "active", none, none⟩] ("power", "active") id ∧
    meterPowerAllData (some (wide (asTable "active" [(0, 5), (10, 7)]))) [⟨"power", some "active", none, none⟩] none TF.blank none 2 =
      .ok (some [(0, .power (some 5)), (10, .power (some 7))]) :=
  ⟨⟨[], _, [], rfl, by simp, rfl, rfl, .inr ⟨.inl rfl, fun _ => rfl⟩⟩, by decide +kernel⟩

end Nilmtk
