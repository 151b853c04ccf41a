import Verif.Model.Fraction
import Mathlib.Data.List.Nodup
import Mathlib.Algebra.BigOperators.Group.List.Basic
import Mathlib.Algebra.Order.BigOperators.Group.List
import Mathlib.Tactic.Linarith
import Mathlib.Tactic.Positivity
import Mathlib.Tactic.FieldSimp
/-!
C57: the fractions of the energy per meter, and the fraction of energy assigned correctly.
-/
namespace Nilmtk

/-! ### Specification -/

/-- `v` is the largest of the energies that are there. -/
def IsLargest (v : Rat) (es : Energies) : Prop := some v ∈ es ∧ ∀ x, some x ∈ es → x ≤ v

/-- Energies that are not negative. -/
def NonNeg (ms : List (Int × Energies)) : Prop := ∀ m ∈ ms, ∀ x, some x ∈ m.2 → 0 ≤ x

/-- Every meter has an energy. -/
def NoGaps (ms : List (Int × Energies)) : Prop := ∀ m ∈ ms, ∃ x, some x ∈ m.2

/-- Some meter has a positive energy. -/
def SomeEnergy (ms : List (Int × Energies)) : Prop := ∃ m ∈ ms, ∃ x, some x ∈ m.2 ∧ 0 < x

/-- No meter instance is repeated. -/
def Distinct (ms : List (Int × Energies)) : Prop := (ms.map Prod.fst).Nodup

/-! ### Lemmas -/

theorem maxSkipNan_spec (es : Energies) :
    (maxSkipNan es = none ↔ ∀ x, some x ∉ es) ∧ ∀ v, maxSkipNan es = some v ↔ IsLargest v es := by
  have hmem : ∀ x, x ∈ es.filterMap id ↔ some x ∈ es := by simp
  unfold maxSkipNan IsLargest
  constructor
  · rw [List.max?_eq_none_iff]
    constructor
    · intro h x hx
      rw [← hmem, h] at hx
      simp at hx
    · intro h
      rw [List.eq_nil_iff_forall_not_mem]
      exact fun x hx => h x ((hmem x).1 hx)
  · intro v
    rw [List.max?_eq_some_iff]
    simp only [hmem]

/-- The largest energies. -/
def bests (ms : List (Int × Energies)) : List (Int × Option Rat) := ms.map (fun m => (m.1, maxSkipNan m.2))

/-- Their total. -/
def totalOf (ms : List (Int × Energies)) : Rat := ((bests ms).filterMap Prod.snd).sum

theorem fractionPerMeter_eq (ms : List (Int × Energies)) :
    fractionPerMeter ms = ms.map (fun m => (m.1, divTotal (totalOf ms) (maxSkipNan m.2))) := by
  unfold fractionPerMeter totalOf bests
  simp [List.map_map]

theorem best_nonneg {ms : List (Int × Energies)} (h : NonNeg ms) {m : Int × Energies} (hm : m ∈ ms) {v : Rat}
    (hv : maxSkipNan m.2 = some v) : 0 ≤ v := h m hm v (((maxSkipNan_spec m.2).2 v).1 hv).1

theorem totalOf_cons (m : Int × Energies) (ms : List (Int × Energies)) :
    totalOf (m :: ms) = (maxSkipNan m.2).getD 0 + totalOf ms := by
  unfold totalOf bests
  rw [List.map_cons]
  cases maxSkipNan m.2 <;> simp

theorem totalOf_nonneg {ms : List (Int × Energies)} (h : NonNeg ms) : 0 ≤ totalOf ms := by
  induction ms with
  | nil => simp [totalOf, bests]
  | cons m ms ih =>
    rw [totalOf_cons]
    have := ih (fun x hx => h x (by simp [hx]))
    cases hv : maxSkipNan m.2 with
    | none => simpa using this
    | some v =>
      have := best_nonneg h (by simp) hv
      simp only [Option.getD_some]
      linarith

theorem best_le_total {ms : List (Int × Energies)} (h : NonNeg ms) {m : Int × Energies} (hm : m ∈ ms) {v : Rat}
    (hv : maxSkipNan m.2 = some v) : v ≤ totalOf ms := by
  induction ms with
  | nil => simp at hm
  | cons a ms ih =>
    have hn : NonNeg ms := fun x hx => h x (by simp [hx])
    rw [totalOf_cons]
    rcases List.mem_cons.1 hm with rfl | hm
    · rw [hv]
      have := totalOf_nonneg hn
      simp only [Option.getD_some]
      linarith
    · have h1 := ih hn hm
      cases hva : maxSkipNan a.2 with
      | none => simpa using h1
      | some w =>
        have := best_nonneg h (by simp) hva
        simp only [Option.getD_some]
        linarith

theorem totalOf_pos {ms : List (Int × Energies)} (h : NonNeg ms) (hs : SomeEnergy ms) : 0 < totalOf ms := by
  obtain ⟨m, hm, x, hx, hpos⟩ := hs
  cases hv : maxSkipNan m.2 with
  | none => exact absurd hx (((maxSkipNan_spec m.2).1.1 hv) x)
  | some v =>
    have := best_le_total h hm hv
    have := (((maxSkipNan_spec m.2).2 v).1 hv).2 x hx
    linarith

theorem sum_div_total (ms : List (Int × Energies)) (t : Rat) (ht : t ≠ 0) :
    ((ms.map (fun m => (m.1, divTotal t (maxSkipNan m.2)))).filterMap Prod.snd).sum = totalOf ms / t := by
  induction ms with
  | nil => simp [totalOf, bests]
  | cons m ms ih =>
    rw [totalOf_cons, List.map_cons, List.filterMap_cons]
    cases hv : maxSkipNan m.2 with
    | none => simpa [divTotal] using ih
    | some v =>
      have hd : divTotal t (some v) = some (v / t) := by simp [divTotal, ht]
      simp only [hd, List.sum_cons, ih, Option.getD_some]
      field_simp

/-! ### Theorems: fraction_per_meter -/

/-- The fractions, in the order of the meters: NaN exactly for a meter without energy readings, otherwise the meter's
largest energy over the total; they lie between 0 and 1 and add up to 1. -/
theorem C57_fractions (ms : List (Int × Energies)) (hn : NonNeg ms) (hs : SomeEnergy ms) :
    (fractionPerMeter ms).map Prod.fst = ms.map Prod.fst ∧
    (∀ r ∈ fractionPerMeter ms, ∀ v, r.2 = some v → 0 ≤ v ∧ v ≤ 1) ∧
    ((fractionPerMeter ms).filterMap Prod.snd).sum = 1 ∧
    ∃ total, 0 < total ∧ List.Forall₂ (fun m r => (r.2 = none ↔ ∀ x, some x ∉ m.2) ∧
      ∀ v, r.2 = some v → IsLargest (v * total) m.2) ms (fractionPerMeter ms) := by
  have hpos := totalOf_pos hn hs
  rw [fractionPerMeter_eq]
  refine ⟨?_, ?_, ?_, totalOf ms, hpos, ?_⟩
  · rw [List.map_map]; rfl
  · intro r hr v hv
    obtain ⟨m, hm, rfl⟩ := List.mem_map.1 hr
    simp only at hv
    cases hb : maxSkipNan m.2 with
    | none => rw [hb] at hv; simp [divTotal] at hv
    | some w =>
      rw [hb] at hv
      simp only [divTotal, if_neg hpos.ne', Option.some.injEq] at hv
      rw [← hv]
      exact ⟨div_nonneg (best_nonneg hn hm hb) hpos.le, by
        rw [div_le_one hpos]; exact best_le_total hn hm hb⟩
  · rw [sum_div_total ms _ hpos.ne', div_self hpos.ne']
  · rw [List.forall₂_map_right_iff]
    apply List.forall₂_same.2
    intro m hm
    cases hb : maxSkipNan m.2 with
    | none =>
      refine ⟨⟨fun _ => (maxSkipNan_spec m.2).1.1 hb, fun _ => rfl⟩, ?_⟩
      intro v hv
      simp [divTotal] at hv
    | some w =>
      simp only [divTotal, if_neg hpos.ne', reduceCtorEq, false_iff, Option.some.injEq]
      refine ⟨?_, ?_⟩
      · intro h
        exact h w (((maxSkipNan_spec m.2).2 w).1 hb).1
      · rintro v rfl
        rw [div_mul_cancel₀ _ hpos.ne']
        exact ((maxSkipNan_spec m.2).2 w).1 hb

/-- Without any energy all fractions are NaN. -/
theorem C57_no_energy (ms : List (Int × Energies)) (hn : NonNeg ms) (hs : ¬ SomeEnergy ms) :
    ∀ r ∈ fractionPerMeter ms, r.2 = none := by
  have h0 : totalOf ms = 0 := by
    have hb : ∀ m ∈ ms, (maxSkipNan m.2).getD 0 = 0 := by
      intro m hm
      cases hb : maxSkipNan m.2 with
      | none => rfl
      | some v =>
        have h1 := best_nonneg hn hm hb
        have h2 : ¬ 0 < v := fun hv => hs ⟨m, hm, v, (((maxSkipNan_spec m.2).2 v).1 hb).1, hv⟩
        simp only [Option.getD_some]
        linarith
    clear hn hs
    induction ms with
    | nil => simp [totalOf, bests]
    | cons m ms ih =>
      rw [totalOf_cons, hb m (by simp), ih (fun x hx => hb x (by simp [hx])), add_zero]
  intro r hr
  rw [fractionPerMeter_eq] at hr
  obtain ⟨m, hm, rfl⟩ := List.mem_map.1 hr
  simp only [h0]
  cases maxSkipNan m.2 <;> simp [divTotal]

/-! ### fraction_energy_assigned_correctly -/

theorem seriesGet_mem (s : List (Int × Option Rat)) (h : (s.map Prod.fst).Nodup) (r : Int × Option Rat) (hr : r ∈ s) :
    seriesGet s r.1 = .ok r.2 := by
  unfold seriesGet
  induction s with
  | nil => simp at hr
  | cons a s ih =>
    rw [List.map_cons, List.nodup_cons] at h
    rw [List.find?_cons]
    rcases List.mem_cons.1 hr with rfl | hr
    · simp
    · have : a.1 ≠ r.1 := fun he => h.1 (he ▸ List.mem_map.2 ⟨r, hr, rfl⟩)
      rw [show (a.1 == r.1) = false by simpa using this]
      exact ih h.2 hr

theorem seriesGet_error (s : List (Int × Option Rat)) (i : Int) :
    (∃ v, seriesGet s i = .ok v) ∨ seriesGet s i = .error .keyError := by
  unfold seriesGet
  cases s.find? (fun r => r.1 == i) <;> simp

theorem seriesGet_missing (s : List (Int × Option Rat)) (i : Int) :
    seriesGet s i = .error .keyError ↔ i ∉ s.map Prod.fst := by
  unfold seriesGet
  cases h : s.find? (fun r => r.1 == i) with
  | none =>
    rw [List.find?_eq_none] at h
    simp only [true_iff]
    intro hm
    obtain ⟨r, hr, rfl⟩ := List.mem_map.1 hm
    exact h r hr (by simp)
  | some r =>
    have h1 := List.mem_of_find?_eq_some h
    have h2 : r.1 = i := by simpa using List.find?_some h
    simp only [reduceCtorEq, false_iff, not_not]
    exact List.mem_map.2 ⟨r, h1, h2⟩

/-- Look-up in a series as a number. -/
def valAt (s : List (Int × Option Rat)) (i : Int) : Rat :=
  match seriesGet s i with
  | .ok (some v) => v
  | _ => 0

theorem loop_value (truth pred : List (Int × Option Rat)) (is : List Int) : ∀ acc : Rat,
    (∀ i ∈ is, ∃ v, seriesGet truth i = .ok (some v)) → (∀ i ∈ is, ∃ v, seriesGet pred i = .ok (some v)) →
    assignedLoop truth pred (some acc) is =
      .ok (some (acc + (is.map (fun i => min (valAt truth i) (valAt pred i))).sum)) := by
  induction is with
  | nil => intro acc _ _; simp [assignedLoop]
  | cons i is ih =>
    intro acc h1 h2
    obtain ⟨g, hg⟩ := h1 i (by simp)
    obtain ⟨p, hp⟩ := h2 i (by simp)
    have hm : pyMin (some g) (some p) = some (min g p) := by
      unfold pyMin
      split
      · rename_i x y e1 e2
        cases e1; cases e2
        split
        · rename_i h; rw [min_eq_right h.le]
        · rename_i h; rw [min_eq_left (not_lt.1 h)]
      · rename_i h
        exact absurd rfl (h g p rfl)
    have vg : valAt truth i = g := by simp [valAt, hg]
    have vp : valAt pred i = p := by simp [valAt, hp]
    rw [assignedLoop, hg]
    simp only [hp, hm]
    rw [ih _ (fun j hj => h1 j (by simp [hj])) (fun j hj => h2 j (by simp [hj]))]
    simp only [List.map_cons, List.sum_cons, vg, vp, add_assoc]

theorem fractions_nodup (ms : List (Int × Energies)) (h : Distinct ms) : ((fractionPerMeter ms).map Prod.fst).Nodup := by
  rw [fractionPerMeter_eq, List.map_map]
  exact h

theorem get_fraction (ms : List (Int × Energies)) (hd : Distinct ms) (hn : NonNeg ms) (hs : SomeEnergy ms) (hg : NoGaps ms)
    (i : Int) (hi : i ∈ ms.map Prod.fst) : ∃ v, seriesGet (fractionPerMeter ms) i = .ok (some v) ∧ 0 ≤ v := by
  obtain ⟨m, hm, rfl⟩ := List.mem_map.1 hi
  obtain ⟨x, hx⟩ := hg m hm
  have hpos := totalOf_pos hn hs
  cases hb : maxSkipNan m.2 with
  | none => exact absurd hx ((maxSkipNan_spec m.2).1.1 hb x)
  | some w =>
    have hr : (m.1, some (w / totalOf ms)) ∈ fractionPerMeter ms := by
      rw [fractionPerMeter_eq]
      exact List.mem_map.2 ⟨m, hm, by rw [hb]; simp [divTotal, hpos.ne']⟩
    exact ⟨w / totalOf ms, seriesGet_mem _ (fractions_nodup ms hd) _ hr, div_nonneg (best_nonneg hn hm hb) hpos.le⟩

theorem sum_valAt (s : List (Int × Option Rat)) (h : (s.map Prod.fst).Nodup) :
    ((s.map Prod.fst).map (valAt s)).sum = (s.filterMap Prod.snd).sum := by
  have key : ∀ l : List (Int × Option Rat), (∀ r ∈ l, r ∈ s) →
      ((l.map Prod.fst).map (valAt s)).sum = (l.filterMap Prod.snd).sum := by
    intro l
    induction l with
    | nil => simp
    | cons r l ih =>
      intro hl
      have ih := ih (fun x hx => hl x (by simp [hx]))
      have hr := seriesGet_mem s h r (hl r (by simp))
      obtain ⟨i, v⟩ := r
      simp only [List.map_cons, List.sum_cons, ih]
      cases v with
      | none => simp [valAt, hr]
      | some v => simp [valAt, hr]
  exact key s (fun r hr => hr)

theorem sum_le_of_subset (f : Int → Rat) (hf : ∀ i, 0 ≤ f i) : ∀ (as bs : List Int), as.Nodup → (∀ i ∈ as, i ∈ bs) →
    (as.map f).sum ≤ (bs.map f).sum := by
  intro as
  induction as with
  | nil => intro bs _ _; exact List.sum_nonneg (by simpa using fun i _ => hf i)
  | cons a as ih =>
    intro bs hn hsub
    rw [List.nodup_cons] at hn
    have hmem := hsub a (by simp)
    have hp := (List.perm_cons_erase hmem).map f
    rw [hp.sum_eq, List.map_cons, List.map_cons, List.sum_cons, List.sum_cons]
    have := ih (bs.erase a) hn.2 (fun i hi => by
      have hne : i ≠ a := fun he => hn.1 (he ▸ hi)
      exact (List.mem_erase_of_ne hne).2 (hsub i (by simp [hi])))
    linarith

/-- With energies for all meters of both groups, and every predicted meter in the ground truth, the result lies between 0
and 1, and is 1 exactly when every predicted fraction equals the true one. -/
theorem C57_assigned_partial (pred truth : List (Int × Energies)) (hdp : Distinct pred) (hdt : Distinct truth)
    (hnp : NonNeg pred) (hnt : NonNeg truth) (hsp : SomeEnergy pred) (hst : SomeEnergy truth) (hgp : NoGaps pred)
    (hgt : NoGaps truth) (hsub : ∀ i ∈ pred.map Prod.fst, i ∈ truth.map Prod.fst) :
    ∃ v, fractionAssigned pred truth = .ok (some v) ∧ 0 ≤ v ∧ v ≤ 1 ∧
      (v = 1 ↔ ∀ i ∈ pred.map Prod.fst, seriesGet (fractionPerMeter pred) i = seriesGet (fractionPerMeter truth) i) := by
  have gp := get_fraction pred hdp hnp hsp hgp
  have gt := get_fraction truth hdt hnt hst hgt
  have hval := loop_value (fractionPerMeter truth) (fractionPerMeter pred) (pred.map Prod.fst) 0
    (fun i hi => let ⟨v, hv, _⟩ := gt i (hsub i hi); ⟨v, hv⟩) (fun i hi => let ⟨v, hv, _⟩ := gp i hi; ⟨v, hv⟩)
  rw [zero_add] at hval
  have vp : ∀ i ∈ pred.map Prod.fst, seriesGet (fractionPerMeter pred) i = .ok (some (valAt (fractionPerMeter pred) i)) := by
    intro i hi
    obtain ⟨v, hv, -⟩ := gp i hi
    simp [valAt, hv]
  have vt : ∀ i ∈ truth.map Prod.fst, seriesGet (fractionPerMeter truth) i = .ok (some (valAt (fractionPerMeter truth) i)) := by
    intro i hi
    obtain ⟨v, hv, -⟩ := gt i hi
    simp [valAt, hv]
  have np : ∀ i, 0 ≤ valAt (fractionPerMeter pred) i := by
    intro i
    by_cases hi : i ∈ pred.map Prod.fst
    · obtain ⟨v, hv, h0⟩ := gp i hi
      simpa [valAt, hv] using h0
    · have : seriesGet (fractionPerMeter pred) i = .error .keyError := by
        rw [seriesGet_missing, (C57_fractions pred hnp hsp).1]; exact hi
      simp [valAt, this]
  have nt : ∀ i, 0 ≤ valAt (fractionPerMeter truth) i := by
    intro i
    by_cases hi : i ∈ truth.map Prod.fst
    · obtain ⟨v, hv, h0⟩ := gt i hi
      simpa [valAt, hv] using h0
    · have : seriesGet (fractionPerMeter truth) i = .error .keyError := by
        rw [seriesGet_missing, (C57_fractions truth hnt hst).1]; exact hi
      simp [valAt, this]
  have sp : ((pred.map Prod.fst).map (valAt (fractionPerMeter pred))).sum = 1 := by
    rw [← (C57_fractions pred hnp hsp).1, sum_valAt _ (fractions_nodup pred hdp), (C57_fractions pred hnp hsp).2.2.1]
  have st : ((truth.map Prod.fst).map (valAt (fractionPerMeter truth))).sum = 1 := by
    rw [← (C57_fractions truth hnt hst).1, sum_valAt _ (fractions_nodup truth hdt), (C57_fractions truth hnt hst).2.2.1]
  have st' : ((pred.map Prod.fst).map (valAt (fractionPerMeter truth))).sum ≤ 1 := by
    rw [← st]
    exact sum_le_of_subset _ nt _ _ hdp hsub
  generalize valAt (fractionPerMeter pred) = P at *
  generalize valAt (fractionPerMeter truth) = T at *
  refine ⟨_, hval, ?_, ?_, ?_⟩
  · exact List.sum_nonneg (by
      intro x hx
      obtain ⟨i, -, rfl⟩ := List.mem_map.1 hx
      exact le_min (nt i) (np i))
  · rw [← sp]
    exact List.sum_le_sum (fun i _ => min_le_right _ _)
  · have key : ∀ l : List Int, (l.map P).sum = (l.map (fun i => min (T i) (P i))).sum → ∀ i ∈ l, P i ≤ T i := by
      intro l
      induction l with
      | nil => simp
      | cons a l ih =>
        intro h i hi
        simp only [List.map_cons, List.sum_cons] at h
        have h1 : (l.map (fun i => min (T i) (P i))).sum ≤ (l.map P).sum := List.sum_le_sum (fun i _ => min_le_right _ _)
        have h2 : min (T a) (P a) ≤ P a := min_le_right _ _
        rcases List.mem_cons.1 hi with rfl | hi
        · have : min (T i) (P i) = P i := by linarith
          exact min_eq_right_iff.1 this
        · exact ih (by linarith) i hi
    have key2 : ∀ l : List Int, (∀ i ∈ l, P i ≤ T i) → (l.map T).sum ≤ (l.map P).sum → ∀ i ∈ l, P i = T i := by
      intro l
      induction l with
      | nil => simp
      | cons a l ih =>
        intro h hsum i hi
        simp only [List.map_cons, List.sum_cons] at hsum
        have h1 : (l.map P).sum ≤ (l.map T).sum := List.sum_le_sum (fun i hi => h i (by simp [hi]))
        have h2 := h a (by simp)
        rcases List.mem_cons.1 hi with rfl | hi
        · linarith
        · exact ih (fun j hj => h j (by simp [hj])) (by linarith) i hi
    constructor
    · intro hv i hi
      have hle := key _ (by rw [sp, hv])
      have heq := key2 _ hle (by rw [sp]; exact st') i hi
      rw [vp i hi, vt i (hsub i hi), heq]
    · intro h
      rw [← sp]
      congr 1
      apply List.map_congr_left
      intro i hi
      have := h i hi
      rw [vp i hi, vt i (hsub i hi)] at this
      simp only [Except.ok.injEq, Option.some.injEq] at this
      rw [this, min_self]

/-- A predicted meter that is not in the ground truth raises `KeyError`. -/
theorem C57_unknown_meter (pred truth : List (Int × Energies)) (h : ∃ i ∈ pred.map Prod.fst, i ∉ truth.map Prod.fst) :
    fractionAssigned pred truth = .error .keyError := by
  have idx : (fractionPerMeter truth).map Prod.fst = truth.map Prod.fst := by
    rw [fractionPerMeter_eq, List.map_map]; rfl
  unfold fractionAssigned
  rw [← idx] at h
  generalize fractionPerMeter truth = t at *
  generalize fractionPerMeter pred = p
  generalize (some 0 : Option Rat) = acc
  generalize pred.map Prod.fst = is at *
  induction is generalizing acc with
  | nil => simp at h
  | cons i is ih =>
    rw [assignedLoop]
    by_cases hi : i ∈ t.map Prod.fst
    · rcases seriesGet_error t i with ⟨g, hg⟩ | he
      · rw [hg]
        simp only
        rcases seriesGet_error p i with ⟨q, hq⟩ | he
        · rw [hq]
          apply ih
          obtain ⟨j, hj, hn⟩ := h
          rcases List.mem_cons.1 hj with rfl | hj
          · exact absurd hi hn
          · exact ⟨j, hj, hn⟩
        · rw [he]
      · exact absurd hi ((seriesGet_missing t i).1 he)
    · rw [(seriesGet_missing t i).2 hi]

/-- A prediction without energy (NaN) is given full credit: with the first meter not predicted at all and everything
assigned to the second, the score is 1. -/
theorem C57_missing_prediction_counterexample :
    ∃ pred truth : List (Int × Energies), Distinct pred ∧ Distinct truth ∧ NonNeg pred ∧ NonNeg truth ∧
      SomeEnergy pred ∧ SomeEnergy truth ∧ NoGaps truth ∧ pred.map Prod.fst = truth.map Prod.fst ∧
      fractionPerMeter pred = [(1, none), (2, some 1)] ∧ fractionPerMeter truth = [(1, some (1 / 2)), (2, some (1 / 2))] ∧
      fractionAssigned pred truth = .ok (some 1) := by
  refine ⟨[(1, [none]), (2, [some 7])], [(1, [some 3]), (2, [some 3])], ?_, ?_, ?_, ?_, ?_, ?_, ?_, rfl, ?_, ?_, ?_⟩
  · simp [Distinct]
  · simp [Distinct]
  · intro m hm x hx
    simp only [List.mem_cons, List.not_mem_nil, or_false] at hm
    rcases hm with rfl | rfl <;> simp at hx
    rw [hx]; decide
  · intro m hm x hx
    simp only [List.mem_cons, List.not_mem_nil, or_false] at hm
    rcases hm with rfl | rfl <;> (simp at hx; rw [hx]; decide)
  · exact ⟨(2, [some 7]), by simp, 7, by simp, by decide⟩
  · exact ⟨(2, [some 3]), by simp, 3, by simp, by decide⟩
  · intro m hm
    simp only [List.mem_cons, List.not_mem_nil, or_false] at hm
    rcases hm with rfl | rfl <;> exact ⟨3, by simp⟩
  · decide +kernel
  · decide +kernel
  · decide +kernel

/-- Energy that is not assigned to any predicted meter costs nothing beyond the normalisation: fractions are relative to the
total of each group, so a prediction of a tenth of the true energy in the right proportions scores 1. -/
theorem C57_scale_counterexample :
    ∃ pred truth : List (Int × Energies), pred = [(1, [some 1]), (2, [some 3])] ∧ truth = [(1, [some 10]), (2, [some 30])] ∧
      fractionAssigned pred truth = .ok (some 1) := ⟨_, _, rfl, rfl, by decide +kernel⟩

example : fractionAssigned [(1, [some 1, none]), (2, [some 3, some 2])] [(2, [some 1]), (1, [some 1]), (3, [some 2])] =
    .ok (some (1 / 2)) := by decide +kernel

end Nilmtk
