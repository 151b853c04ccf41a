import Verif.Model.Vampire
import Verif.Props.MeterPower
import Verif.Props.Histogram
/-!
C129: the vampire power of a meter.
-/
namespace Nilmtk
open TF

/-! ### Specification -/

/-- `v` is the smallest of the readings that are there; missing if none is. -/
def SmallestReading (xs : List (Option Rat)) : Option Rat → Prop
  | none => ∀ x ∈ xs, x = none
  | some v => some v ∈ xs ∧ ∀ w, some w ∈ xs → v ≤ w

/-! ### Lemmas -/

theorem vampireOf_smallest {α : Type} (rows : List (Row α)) (g : α → Option Rat) :
    ∃ v, vampireOf (rows.map (fun r => (r.1, .power (g r.2)))) = .watts v ∧ SmallestReading (rows.map (fun r => g r.2)) v := by
  unfold vampireOf
  have h1 : (rows.map (fun r => (r.1, PowerCell.power (g r.2)))).any (fun r => r.2 == .noColumn) = false := by
    rw [List.any_eq_false]
    intro x hx
    obtain ⟨r, -, rfl⟩ := List.mem_map.1 hx
    simp
  rw [h1]
  refine ⟨_, rfl, ?_⟩
  rw [List.filterMap_map]
  have hm : ∀ w, w ∈ rows.filterMap ((fun r : Row PowerCell => r.2.reading) ∘ fun r => (r.1, PowerCell.power (g r.2))) ↔
      some w ∈ rows.map (fun r => g r.2) := by
    intro w
    rw [List.mem_filterMap, List.mem_map]
    rfl
  cases h : minOf (rows.filterMap ((fun r : Row PowerCell => r.2.reading) ∘ fun r => (r.1, PowerCell.power (g r.2)))) with
  | some v =>
    obtain ⟨h2, h3⟩ := (minOf_least _ v).1 h
    exact ⟨(hm v).1 h2, fun w hw => h3 w ((hm w).2 hw)⟩
  | none =>
    intro x hx
    cases x with
    | none => rfl
    | some w =>
      have := (hm w).2 hx
      generalize rows.filterMap ((fun r : Row PowerCell => r.2.reading) ∘ fun r => (r.1, PowerCell.power (g r.2))) = l at h this
      cases l with
      | nil => cases this
      | cons _ _ => cases h

/-- C129. The vampire power is the smallest power of the rows in the window, where the power of a row is the sum of its readings in the columns
chosen; rows in which one of them is missing do not count, and it is NaN if there are no others. `_partial`: fewer than two rows in the window are an
`AttributeError`, and without a window the load fails when the chunks leave one row. -/
theorem C129_smallest_partial (t : RawTable (List (Option Rat))) (hinc : Increasing t.rows) (hcols : t.columns.Nodup)
    (hcells : ∀ r ∈ t.rows, r.2.length = t.columns.length) (ms : List Measurement) (ac : Option Req) (asked : List Col)
    (hc : convertToCols ms (.one "power") (ac.getD (.one "best")) none = .ok asked) (hex : ∃ c ∈ asked, c ∈ t.columns)
    (a b : Option Int) (hab : ∀ x y, a = some x → b = some y → x < y) (cs : Int) (hcs : 0 < cs)
    (inside : List (Row (List (Option Rat)))) (hin : inside = t.rows.filter (fun r => fromUntil a b r.1)) (h2 : 2 ≤ inside.length)
    (hchunk : a = none → b = none → ¬ cs ∣ (t.rows.length : Int) - 1) :
    ∃ v, meterVampirePower (some t) ms ac (mk' a b) none cs = .ok (.watts v) ∧
      SmallestReading (inside.map (fun r => addedUp (chosenCells t.columns asked r.2))) v := by
  unfold meterVampirePower
  rw [C114_power_partial t hinc hcols hcells ms ac asked hc hex a b hab cs hcs inside hin, if_neg (fun h => hchunk h.1 h.2.1 h.2.2.2),
    if_neg (by omega)]
  obtain ⟨v, h3, h4⟩ := vampireOf_smallest inside (fun cells => addedUp (chosenCells t.columns asked cells))
  exact ⟨v, by simp only; rw [h3], h4⟩

/-- C129. By default it is the smallest reading of the best AC type for power. -/
theorem C129_best_partial (t : RawTable (List (Option Rat))) (hinc : Increasing t.rows) (hcols : t.columns.Nodup)
    (hcells : ∀ r ∈ t.rows, r.2.length = t.columns.length) (ms : List Measurement) (ac : String)
    (hb : IsBest ms ("power", ac)) (i : Nat) (hi : t.columns[i]? = some ("power", ac)) (a b : Option Int)
    (hab : ∀ x y, a = some x → b = some y → x < y) (cs : Int) (hcs : 0 < cs)
    (inside : List (Row (List (Option Rat)))) (hin : inside = t.rows.filter (fun r => fromUntil a b r.1)) (h2 : 2 ≤ inside.length)
    (hchunk : a = none → b = none → ¬ cs ∣ (t.rows.length : Int) - 1) :
    ∃ v, meterVampirePower (some t) ms none (mk' a b) none cs = .ok (.watts v) ∧
      SmallestReading (inside.map (fun r => (r.2[i]?).join)) v := by
  unfold meterVampirePower
  rw [C114_best_partial t hinc hcols hcells ms ac hb i hi a b hab cs hcs inside hin, if_neg (fun h => hchunk h.1 h.2.1 h.2.2.2),
    if_neg (by omega)]
  obtain ⟨v, h3, h4⟩ := vampireOf_smallest inside (fun cells => (cells[i]?).join)
  exact ⟨v, by simp only; rw [h3], h4⟩

/-- C129. With fewer than two rows in the window there is no vampire power: `AttributeError`, even if there is one reading. -/
theorem C129_few_rows (t : RawTable (List (Option Rat))) (hinc : Increasing t.rows) (hcols : t.columns.Nodup)
    (hcells : ∀ r ∈ t.rows, r.2.length = t.columns.length) (ms : List Measurement) (ac : Option Req) (asked : List Col)
    (hc : convertToCols ms (.one "power") (ac.getD (.one "best")) none = .ok asked) (hex : ∃ c ∈ asked, c ∈ t.columns)
    (a b : Option Int) (hab : ∀ x y, a = some x → b = some y → x < y) (cs : Int) (hcs : 0 < cs)
    (h2 : (t.rows.filter (fun r => fromUntil a b r.1)).length < 2) :
    meterVampirePower (some t) ms ac (mk' a b) none cs = .error .attributeError := by
  unfold meterVampirePower
  rw [C114_power_partial t hinc hcols hcells ms ac asked hc hex a b hab cs hcs _ rfl, if_neg, if_pos h2]
  rintro ⟨rfl, rfl, h3, -⟩
  have hall : t.rows.filter (fun r => fromUntil none none r.1) = t.rows := List.filter_eq_self.2 (fun r _ => rfl)
  rw [hall] at h2
  omega

/-- C129. What is wrong with the request, or with the store, is raised. -/
theorem C129_errors (t : Option (RawTable (List (Option Rat)))) (ms : List Measurement) (ac : Option Req) :
    (∀ e window sections cs, convertToCols ms (.one "power") (ac.getD (.one "best")) none = .error e →
      meterVampirePower t ms ac window sections cs = .error e) ∧
    (∀ asked a b cs, convertToCols ms (.one "power") (ac.getD (.one "best")) none = .ok asked →
      (∀ x y, a = some x → b = some y → x < y) → meterVampirePower none ms ac (mk' a b) none cs = .error .keyError) := by
  constructor
  · intro e window sections cs h
    unfold meterVampirePower
    rw [C114_request_error t ms ac e h]
  · intro asked a b cs h hab
    unfold meterVampirePower
    rw [C114_no_table ms ac asked h a b hab cs]

/-- C129. If the table has none of the columns asked for, there is no number but an empty series. -/
theorem C129_no_column (t : RawTable (List (Option Rat))) (hinc : Increasing t.rows) (ms : List Measurement) (ac : Option Req)
    (asked : List Col) (hc : convertToCols ms (.one "power") (ac.getD (.one "best")) none = .ok asked)
    (hex : ∀ c ∈ asked, c ∉ t.columns) (a b : Option Int) (hab : ∀ x y, a = some x → b = some y → x < y)
    (hb : ¬ (a = none ∧ b = none)) (cs : Int) (hcs : 0 < cs) (h2 : 2 ≤ (t.rows.filter (fun r => fromUntil a b r.1)).length) :
    meterVampirePower (some t) ms ac (mk' a b) none cs = .ok .noColumn := by
  unfold meterVampirePower
  rw [C114_no_column t hinc ms ac asked hc hex a b hab hb cs hcs _ rfl h2]
  simp only
  unfold vampireOf
  rw [if_pos]
  rw [List.any_eq_true]
  obtain ⟨r, hr⟩ := List.exists_mem_of_length_pos (show 0 < (t.rows.filter (fun r => fromUntil a b r.1)).length by omega)
  exact ⟨_, List.mem_map.2 ⟨r, hr, rfl⟩, rfl⟩

/-- C129. A larger window never gives a larger vampire power. -/
theorem C129_larger_window (t : RawTable (List (Option Rat))) (hinc : Increasing t.rows) (hcols : t.columns.Nodup)
    (hcells : ∀ r ∈ t.rows, r.2.length = t.columns.length) (ms : List Measurement) (ac : Option Req) (asked : List Col)
    (hc : convertToCols ms (.one "power") (ac.getD (.one "best")) none = .ok asked) (hex : ∃ c ∈ asked, c ∈ t.columns)
    (a b a' b' : Option Int) (hab : ∀ x y, a = some x → b = some y → x < y) (hab' : ∀ x y, a' = some x → b' = some y → x < y)
    (hsub : ∀ x, fromUntil a b x = true → fromUntil a' b' x = true) (cs cs' : Int) (hcs : 0 < cs) (hcs' : 0 < cs')
    (v w : Rat) (hv : meterVampirePower (some t) ms ac (mk' a b) none cs = .ok (.watts (some v)))
    (hw : meterVampirePower (some t) ms ac (mk' a' b') none cs' = .ok (.watts (some w))) : w ≤ v := by
  have key : ∀ (a b : Option Int) (cs : Int) (v : Rat), (∀ x y, a = some x → b = some y → x < y) → 0 < cs →
      meterVampirePower (some t) ms ac (mk' a b) none cs = .ok (.watts (some v)) →
      SmallestReading ((t.rows.filter (fun r => fromUntil a b r.1)).map (fun r => addedUp (chosenCells t.columns asked r.2))) (some v) := by
    intro a b cs v hab hcs h
    by_cases h2 : (t.rows.filter (fun r => fromUntil a b r.1)).length < 2
    · rw [C129_few_rows t hinc hcols hcells ms ac asked hc hex a b hab cs hcs h2] at h
      cases h
    · by_cases h3 : a = none ∧ b = none ∧ 2 ≤ t.rows.length ∧ cs ∣ (t.rows.length : Int) - 1
      · unfold meterVampirePower at h
        rw [C114_power_partial t hinc hcols hcells ms ac asked hc hex a b hab cs hcs _ rfl, if_pos h3] at h
        cases h
      · obtain ⟨x, h4, h5⟩ := C129_smallest_partial t hinc hcols hcells ms ac asked hc hex a b hab cs hcs _ rfl (by omega) (by
          rintro rfl rfl hd
          have hall : t.rows.filter (fun r => fromUntil none none r.1) = t.rows := List.filter_eq_self.2 (fun r _ => rfl)
          rw [hall] at h2
          exact h3 ⟨rfl, rfl, by omega, hd⟩)
        rw [h] at h4
        cases h4
        exact h5
  have k1 := key a b cs v hab hcs hv
  have k2 := key a' b' cs' w hab' hcs' hw
  obtain ⟨r, hr, hr2⟩ := List.mem_map.1 k1.1
  obtain ⟨h1, h2⟩ := List.mem_filter.1 hr
  exact k2.2 v (List.mem_map.2 ⟨r, List.mem_filter.2 ⟨h1, hsub _ h2⟩, hr2⟩)

/-- C129. A user expects that a meter with a reading has a vampire power; a lone row in the window has none. -/
theorem C129_lone_row_counterexample :
    meterVampirePower (some ⟨[("power", "active")], [(0, [some 1]), (10, [some 2])]⟩) [⟨"power", some "active", none, none⟩]
      none (mk' (some 5) none) none 5 = .error .attributeError := by decide +kernel

/-! ### Examples -/

example : meterVampirePower (some ⟨[("voltage", ""), ("power", "active")],
    [(0, [some 1, some 2]), (10, [some 3, some 9]), (20, [some 5, none]), (30, [none, some 8]), (40, [some 9, some 1])]⟩)
    [⟨"power", some "active", none, none⟩] none (mk' (some 10) (some 40)) none 2 = .ok (.watts (some 8)) := by decide +kernel

example : SmallestReading [some 3, none, some 2] (some 2) := ⟨by simp, by intro w hw; simp at hw; rcases hw with rfl | rfl <;> norm_num⟩

end Nilmtk
