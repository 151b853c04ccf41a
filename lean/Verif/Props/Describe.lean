import Verif.Model.Describe
import Verif.Props.MeterProportion
import Mathlib.Order.Bounds.Basic
/-!
C118: from the files of REDD to the energy of groups of meters, their average energy per period and the description of a home.
-/
namespace Nilmtk
open TF

/-! ### Specification -/

/-- The readings in the window. -/
def readIn (a b : Option Int) (k : List (Int × Rat)) : List (Int × Rat) := k.filter (fun r => between a b r.1)

/-- The meter has the readings `l`, at least two, of the AC type `ac`, which are `k` when limited as its device says. -/
def HasReadings (m : StoredMeter) (ac : String) (l k : List (Int × Rat)) : Prop := StoredAs m ac l k ∧ 2 ≤ l.length

/-- The other meters have the AC type of the first one and two readings in the window. -/
def AllReport {ι : Type} (A : ι → String) (K : ι → List (Int × Rat)) (a b : Option Int) (ac : String) (rest : List ι) : Prop :=
  ∀ q ∈ rest, A q = ac ∧ 2 ≤ (readIn a b (K q)).length

/-- The energy of meters with readings in the window. -/
def sumKwh {ι : Type} (M : ι → StoredMeter) (K : ι → List (Int × Rat)) (a b : Option Int) (ms : List ι) : Rat :=
  (ms.map (fun q => kwhOf (M q).seconds (readIn a b (K q)))).sum

/-! ### The energy of a group -/

theorem readIn_limited (a b : Option Int) (l : List (Int × Rat)) (f : Rat → Rat) :
    readIn a b (l.map (fun r => (r.1, f r.2))) = (readIn a b l).map (fun r => (r.1, f r.2)) := by
  unfold readIn
  rw [List.filter_map]
  rfl

theorem energy_stored {m : StoredMeter} {ac : String} {l k : List (Int × Rat)} (h : HasReadings m ac l k) (a b : Option Int)
    (cs : Int) (hcs : 0 < cs) :
    m.energy (mk' a b) cs = .ok (if (readIn a b k).length < 2 then [] else [(ac, some (kwhOf m.seconds (readIn a b k)))]) := by
  obtain ⟨⟨ht, hac, hinc, f, hf, rfl⟩, h2⟩ := h
  unfold StoredMeter.energy
  rw [ht, C112_meter_partial _ _ ac hac f hf l hinc h2 a b cs hcs, readIn_limited, List.length_map]
  unfold readIn
  by_cases hlt : (l.filter (fun r => between a b r.1)).length < 2
  · simp only [if_pos hlt]
    rfl
  · simp only [if_neg hlt, energySeriesOf, List.map_cons, List.map_nil, acString_named ac hac]
    rfl

theorem iadd_nothing (l : List EnergySeries) : l.foldl energyIadd [] = [] := by
  induction l with
  | nil => rfl
  | cons s l ih => rw [List.foldl_cons]; exact ih

open Classical in
theorem iadd_fold {ι : Type} (M : ι → StoredMeter) (A : ι → String) (K : ι → List (Int × Rat)) (a b : Option Int) (ac : String)
    (rest : List ι) (v : Option Rat) :
    (rest.map (fun q => if (readIn a b (K q)).length < 2 then [] else [(A q, some (kwhOf (M q).seconds (readIn a b (K q))))])).foldl
      energyIadd [(ac, v)] = [(ac, if AllReport A K a b ac rest then v.map (· + sumKwh M K a b rest) else none)] := by
  induction rest generalizing v with
  | nil => cases v <;> simp [AllReport, sumKwh]
  | cons q rest ih =>
    rw [List.map_cons, List.foldl_cons]
    have hcons : AllReport A K a b ac (q :: rest) ↔ (A q = ac ∧ 2 ≤ (readIn a b (K q)).length) ∧ AllReport A K a b ac rest := by
      unfold AllReport
      simp only [List.forall_mem_cons]
    by_cases hq : A q = ac ∧ 2 ≤ (readIn a b (K q)).length
    · have h1 : energyIadd [(ac, v)] (if (readIn a b (K q)).length < 2 then [] else
          [(A q, some (kwhOf (M q).seconds (readIn a b (K q))))]) = [(ac, v.map (· + kwhOf (M q).seconds (readIn a b (K q))))] := by
        rw [if_neg (by omega), hq.1]
        cases v <;> simp [energyIadd, energyPlus]
      rw [h1, ih]
      by_cases hr : AllReport A K a b ac rest
      · rw [if_pos hr, if_pos (hcons.2 ⟨hq, hr⟩)]
        cases v <;> simp [sumKwh, add_assoc]
      · rw [if_neg hr, if_neg (fun h => hr (hcons.1 h).2)]
    · have h1 : energyIadd [(ac, v)] (if (readIn a b (K q)).length < 2 then [] else
          [(A q, some (kwhOf (M q).seconds (readIn a b (K q))))]) = [(ac, none)] := by
        split
        · cases v <;> simp [energyIadd, energyPlus]
        · have hne : ac ≠ A q := fun he => hq ⟨he.symm, by omega⟩
          have : (ac == A q) = false := by simpa using hne
          cases v <;> simp [energyIadd, energyPlus, List.lookup, this]
      rw [h1, ih, if_neg (fun h => hq (hcons.1 h).1)]
      simp

open Classical in
/-- C118. The energy of a group: nothing if the first meter has no two readings in the window; else that of the readings of all meters
in the window if all of them have the AC type of the first one and two readings there, and NaN if not. -/
theorem C118_total_partial {ι : Type} (M : ι → StoredMeter) (m : ι) (rest : List ι) (A : ι → String) (L K : ι → List (Int × Rat))
    (h : ∀ q ∈ m :: rest, HasReadings (M q) (A q) (L q) (K q)) (a b : Option Int) (cs : Int) (hcs : 0 < cs) :
    storedGroupEnergy ((m :: rest).map M) (mk' a b) cs = .ok (some (if (readIn a b (K m)).length < 2 then []
      else [(A m, if AllReport A K a b (A m) rest then some (sumKwh M K a b (m :: rest)) else none)])) := by
  have hmap : mapE (fun q => StoredMeter.energy q (mk' a b) cs) ((m :: rest).map M) = .ok ((m :: rest).map (fun q =>
      if (readIn a b (K q)).length < 2 then [] else [(A q, some (kwhOf (M q).seconds (readIn a b (K q))))])) := by
    rw [mapE_ok, List.forall₂_map_right_iff, List.forall₂_map_left_iff, List.forall₂_same]
    intro q hq
    exact energy_stored (h q hq) a b cs hcs
  unfold storedGroupEnergy
  rw [hmap]
  simp only [List.map_cons, groupEnergy]
  by_cases hm : (readIn a b (K m)).length < 2
  · rw [if_pos hm, if_pos hm, iadd_nothing]
  · rw [if_neg hm, if_neg hm, iadd_fold]
    simp [sumKwh]

/-- C118. Meters of different AC types have no energy together: it is NaN, or there is none. -/
theorem C118_mixed {ι : Type} (M : ι → StoredMeter) (m : ι) (rest : List ι) (A : ι → String) (L K : ι → List (Int × Rat))
    (h : ∀ q ∈ m :: rest, HasReadings (M q) (A q) (L q) (K q)) (q : ι) (hq : q ∈ rest) (hne : A q ≠ A m)
    (a b : Option Int) (cs : Int) (hcs : 0 < cs) :
    ∃ s, storedGroupEnergy ((m :: rest).map M) (mk' a b) cs = .ok (some s) ∧ ∀ p ∈ s, p.2 = none := by
  classical
  refine ⟨_, C118_total_partial M m rest A L K h a b cs hcs, ?_⟩
  split
  · simp
  · rw [if_neg (fun hr => hne (hr q hq).1)]
    simp

/-! ### Averages -/

theorem average_maybe (td period : Int) (ac : String) (o : Option Rat) (ht : td ≠ 0) (hp : period ≠ 0) :
    averageEnergy false td period [(ac, o)] = .ok (some [(ac, match o with | some e => .num (e * period / td) | none => .nan)]) := by
  have h1 : (td : Rat) ≠ 0 := by exact_mod_cast ht
  have h2 : (period : Rat) ≠ 0 := by exact_mod_cast hp
  have h3 : (td : Rat) / 1000000000 / ((period : Rat) / 1000000000) ≠ 0 := by positivity
  unfold averageEnergy
  cases o with
  | none => simp only [Bool.false_eq_true, if_false, if_neg ht, List.map_cons, List.map_nil, divNan]
  | some e =>
    simp only [Bool.false_eq_true, if_false, if_neg ht, List.map_cons, List.map_nil, divNan, fdiv, if_neg h3]
    congr 5
    field_simp

open Classical in
/-- The average of a group: a number if all meters report, NaN if not. -/
noncomputable def groupMean {ι : Type} (M : ι → StoredMeter) (A : ι → String) (K : ι → List (Int × Rat)) (a b : Option Int) (m : ι)
    (rest : List ι) (period td : Int) : List (String × FVal Rat) :=
  [(A m, if AllReport A K a b (A m) rest then .num (sumKwh M K a b (m :: rest) * period / td) else .nan)]

theorem average_group {ι : Type} (M : ι → StoredMeter) (m : ι) (rest : List ι) (A : ι → String) (L K : ι → List (Int × Rat))
    (h : ∀ q ∈ m :: rest, HasReadings (M q) (A q) (L q) (K q)) (a b : Option Int) (cs : Int) (hcs : 0 < cs) (useUptime : Bool)
    (period : Int) (hper : 0 < period) (td : Int) (htd : storedGroupTime ((m :: rest).map M) (mk' a b) useUptime cs = .ok td) :
    storedGroupAverage ((m :: rest).map M) (mk' a b) false useUptime period cs = .ok (if td = 0 then none
      else some (if (readIn a b (K m)).length < 2 then [] else groupMean M A K a b m rest period td)) := by
  classical
  unfold storedGroupAverage
  simp only [Bool.false_eq_true, if_false, htd]
  by_cases h0 : td = 0
  · rw [if_pos h0, if_pos h0]
    unfold averageEnergy
    simp [h0]
  · rw [if_neg h0, if_neg h0, C118_total_partial M m rest A L K h a b cs hcs]
    simp only
    by_cases hm : (readIn a b (K m)).length < 2
    · rw [if_pos hm, if_pos hm]
      simp [averageEnergy, h0]
    · rw [if_neg hm, if_neg hm, average_maybe _ _ _ _ h0 (by omega)]
      unfold groupMean
      split
      · rename_i h1
        by_cases hr : AllReport A K a b (A m) rest
        · rw [if_pos hr] at h1
          rw [if_pos hr]
          cases h1
          rfl
        · rw [if_neg hr] at h1
          cases h1
      · rename_i h1
        by_cases hr : AllReport A K a b (A m) rest
        · rw [if_pos hr] at h1
          cases h1
        · rw [if_neg hr]

/-- C118. The average energy per period of a group: the energy of all meters times the length of the period, over the time that the
readings of the first meter cover. It is a single NaN if they cover none, NaN for the AC type of the first meter unless all have this
type and two readings in the window, and a `ValueError` if the window ends at a reading of the first meter after a long gap which is
followed by a short one. -/
theorem C118_average_partial {ι : Type} (M : ι → StoredMeter) (m : ι) (rest : List ι) (A : ι → String) (L K : ι → List (Int × Rat))
    (h : ∀ q ∈ m :: rest, HasReadings (M q) (A q) (L q) (K q)) (hmsp : 0 ≤ (M m).maxSamplePeriod) (a b : Option Int) (cs : Int) (hcs : 0 < cs)
    (period : Int) (hper : 0 < period) :
    ((readIn a b (L m)).length < 2 → storedGroupAverage ((m :: rest).map M) (mk' a b) false true period cs = .ok none) ∧
    (2 ≤ (readIn a b (L m)).length → EndsAtLone (M m).maxSamplePeriod a b ((L m).map Prod.fst) →
      storedGroupAverage ((m :: rest).map M) (mk' a b) false true period cs = .error .valueError) ∧
    (2 ≤ (readIn a b (L m)).length → ¬ EndsAtLone (M m).maxSamplePeriod a b ((L m).map Prod.fst) →
      storedGroupAverage ((m :: rest).map M) (mk' a b) false true period cs =
        .ok (if coveredWithin (M m).maxSamplePeriod a b ((L m).map Prod.fst) = 0 then none
          else some (groupMean M A K a b m rest period (coveredWithin (M m).maxSamplePeriod a b ((L m).map Prod.fst))))) := by
  obtain ⟨⟨ht, hac, hinc, f, hf, hk⟩, h2⟩ := h m (by simp)
  obtain ⟨u1, u2⟩ := C113_uptime (M m).maxSamplePeriod hmsp (A m) (L m) hinc h2 a b cs hcs
  rw [← ht] at u1 u2
  have hlen : (readIn a b (K m)).length = (readIn a b (L m)).length := by rw [hk, readIn_limited, List.length_map]
  refine ⟨fun hs => ?_, fun hs he => ?_, fun hs he => ?_⟩
  · rw [average_group M m rest A L K h a b cs hcs true period hper 0 (u1 hs)]
    rfl
  · unfold storedGroupAverage storedGroupTime storedGroupUptime
    simp only [Bool.false_eq_true, if_false, if_true, List.map_cons, (u2 hs).1 he]
  · rw [average_group M m rest A L K h a b cs hcs true period hper _ ((u2 hs).2 he), if_neg (show ¬ (readIn a b (K m)).length < 2 by omega)]

/-- C118. If all meters have the same AC type and their readings cover the same time, the average energy of the group is the sum of
those of the meters. -/
theorem C118_sum {ι : Type} (M : ι → StoredMeter) (m : ι) (rest : List ι) (ac : String) (L K : ι → List (Int × Rat))
    (h : ∀ q ∈ m :: rest, HasReadings (M q) ac (L q) (K q)) (hmsp : ∀ q ∈ m :: rest, 0 ≤ (M q).maxSamplePeriod) (c : Int) (hc : c ≠ 0)
    (hcov : ∀ q ∈ m :: rest, coveredTime (M q).maxSamplePeriod ((L q).map Prod.fst) = c) (cs : Int) (hcs : 0 < cs)
    (period : Int) (hper : 0 < period) :
    ∃ v : ι → Rat,
      (∀ q ∈ m :: rest, meterAverage (M q).table (M q).measurements (M q).maxSamplePeriod TF.blank false true period cs = .ok (some [(ac, .num (v q))])) ∧
      storedGroupAverage ((m :: rest).map M) TF.blank false true period cs = .ok (some [(ac, .num ((m :: rest).map v).sum)]) := by
  have hall : ∀ k : List (Int × Rat), readIn none none k = k := fun k => List.filter_eq_self.2 (fun _ _ => rfl)
  have hlone : ∀ msp ts, ¬ EndsAtLone msp none none ts := by
    rintro msp ts ⟨r, _, h, _⟩
    cases h
  refine ⟨fun q => kwhOf (M q).seconds (K q) * period / c, ?_, ?_⟩
  · intro q hq
    obtain ⟨⟨ht, hac, hinc, f, hf, hk⟩, h2⟩ := h q hq
    have hm := (C116_uptime_partial (M q).measurements (M q).maxSamplePeriod (hmsp q hq) ac hac f hf (L q) hinc h2 none none period hper cs hcs
      _ rfl).2.2
    rw [show (L q).filter (fun r => between none none r.1) = L q from hall _, coveredWithin_all, hcov q hq, if_neg hc, ← hk, ← ht] at hm
    exact hm h2 (hlone _ _)
  · have hm := (C118_average_partial M m rest (fun _ => ac) L K h (hmsp m (by simp)) none none cs hcs period hper).2.2
    rw [hall, coveredWithin_all, hcov m (by simp), if_neg hc] at hm
    rw [show TF.blank = mk' none none from rfl, hm (h m (by simp)).2 (hlone _ _)]
    unfold groupMean
    rw [if_pos]
    · congr 4
      unfold sumKwh
      simp only [hall]
      rw [mul_div_assoc, ← List.sum_map_mul_right]
      congr 2
      apply List.map_congr_left
      intro q _
      ring
    · intro q hq
      obtain ⟨⟨_, _, _, f, _, hk⟩, h2⟩ := h q (by simp [hq])
      rw [hall, hk, List.length_map]
      exact ⟨rfl, h2⟩

/-! ### The time frame -/

/-- The first and the last time of all readings. -/
def HomeSpan {ι : Type} (L : ι → List (Int × Rat)) (ms : List ι) (first last : Int) : Prop :=
  IsLeast {t | ∃ q ∈ ms, ∃ r ∈ L q, r.1 = t} first ∧ IsGreatest {t | ∃ q ∈ ms, ∃ r ∈ L q, r.1 = t} last

theorem frame_stored {m : StoredMeter} {ac : String} {l k : List (Int × Rat)} (h : HasReadings m ac l k) :
    ∃ s e, s < e ∧ m.frame TF.blank = .ok (mk' (some s) (some e)) ∧ (∃ r ∈ l, r.1 = s) ∧ (∃ r ∈ l, r.1 = e) ∧
      ∀ r ∈ l, s ≤ r.1 ∧ r.1 ≤ e := by
  obtain ⟨⟨ht, hac, hinc, f, hf, hk⟩, h2⟩ := h
  obtain ⟨s, e, hse, he, hb, hhd, _, htf⟩ := table_frame ac l hinc h2
  refine ⟨s, e, hse, ?_, ?_, he, hb⟩
  · unfold StoredMeter.frame
    rw [ht]
    simp only [htf]
    have := window_and_table none none s e
    rw [if_neg (by simpa using hse)] at this
    rw [show TF.blank = mk' none none from rfl, this]
    simp [mk', built, interInclude, interEnd, TF.stop]
  · cases hl : l.head? with
    | none => rw [hl] at hhd; cases hhd
    | some r =>
      rw [hl] at hhd
      exact ⟨r, List.mem_of_head? hl, by simpa using hhd⟩

theorem frames_union {ι : Type} (M : ι → StoredMeter) (A : ι → String) (L K : ι → List (Int × Rat)) (ms : List ι)
    (h : ∀ q ∈ ms, HasReadings (M q) (A q) (L q) (K q)) (s e : Int) (hse : s < e) :
    ∃ s' e', s' < e' ∧ unionFrames (some (mk' (some s) (some e))) (ms.map (fun q => StoredMeter.frame (M q) TF.blank)) =
      .ok (some (mk' (some s') (some e'))) ∧ s' ≤ s ∧ e ≤ e' ∧ (s' = s ∨ ∃ q ∈ ms, ∃ r ∈ L q, r.1 = s') ∧
      (e' = e ∨ ∃ q ∈ ms, ∃ r ∈ L q, r.1 = e') ∧ ∀ q ∈ ms, ∀ r ∈ L q, s' ≤ r.1 ∧ r.1 ≤ e' := by
  induction ms generalizing s e with
  | nil => exact ⟨s, e, hse, rfl, le_refl _, le_refl _, .inl rfl, .inl rfl, by simp⟩
  | cons q ms ih =>
    obtain ⟨x, y, hxy, hf, ⟨rx, hrx, hrx'⟩, ⟨ry, hry, hry'⟩, hb⟩ := frame_stored (h q (by simp))
    have hu : (mk' (some s) (some e)).union (mk' (some x) (some y)) = .ok (mk' (some (min s x)) (some (max e y))) := by
      unfold TF.union
      show TF.ctor (some (min s x)) (some (max e y)) = _
      rw [ctor_ok (by
        intro u v hu hv
        cases hu
        cases hv
        omega)]
    obtain ⟨s', e', h1, h2, h3, h4, h5, h6, h7⟩ := ih (fun p hp => h p (by simp [hp])) (min s x) (max e y) (by omega)
    refine ⟨s', e', h1, ?_, le_trans h3 (min_le_left _ _), le_trans (le_max_left _ _) h4, ?_, ?_, ?_⟩
    · rw [List.map_cons, hf, unionFrames, timeframeStep]
      have hempty : (mk' (some x) (some y)).empty = false := rfl
      simp only [hempty, Bool.false_eq_true, if_false, hu]
      exact h2
    · rcases h5 with h5 | ⟨p, hp, h5⟩
      · rcases le_total s x with hc | hc
        · rw [min_eq_left hc] at h5; exact .inl h5
        · rw [min_eq_right hc] at h5; exact .inr ⟨q, by simp, rx, hrx, hrx'.trans h5.symm⟩
      · exact .inr ⟨p, by simp [hp], h5⟩
    · rcases h6 with h6 | ⟨p, hp, h6⟩
      · rcases le_total e y with hc | hc
        · rw [max_eq_right hc] at h6; exact .inr ⟨q, by simp, ry, hry, hry'.trans h6.symm⟩
        · rw [max_eq_left hc] at h6; exact .inl h6
      · exact .inr ⟨p, by simp [hp], h6⟩
    · intro p hp r hr
      rcases List.mem_cons.1 hp with rfl | hp
      · have := hb r hr
        exact ⟨le_trans (le_trans h3 (min_le_right _ _)) this.1, le_trans this.2 (le_trans (le_max_right _ _) h4)⟩
      · exact h7 p hp r hr

theorem frame_group {ι : Type} (M : ι → StoredMeter) (A : ι → String) (L K : ι → List (Int × Rat)) (ms : List ι) (hne : ms ≠ [])
    (h : ∀ q ∈ ms, HasReadings (M q) (A q) (L q) (K q)) (first last : Int) (hfl : HomeSpan L ms first last) :
    first < last ∧ storedGroupFrame (ms.map M) TF.blank = .ok (some (mk' (some first) (some last))) := by
  cases ms with
  | nil => exact absurd rfl hne
  | cons m rest =>
    obtain ⟨x, y, hxy, hf, ⟨rx, hrx, hrx'⟩, ⟨ry, hry, hry'⟩, hb⟩ := frame_stored (h m (by simp))
    obtain ⟨s, e, h1, h2, h3, h4, h5, h6, h7⟩ := frames_union M A L K rest (fun p hp => h p (by simp [hp])) x y hxy
    obtain ⟨⟨⟨q1, hq1, r1, hr1, e1⟩, hlow⟩, ⟨q2, hq2, r2, hr2, e2⟩, hup⟩ := hfl
    have hall : ∀ q ∈ m :: rest, ∀ r ∈ L q, s ≤ r.1 ∧ r.1 ≤ e := by
      intro q hq r hr
      rcases List.mem_cons.1 hq with rfl | hq
      · have := hb r hr
        exact ⟨le_trans h3 this.1, le_trans this.2 h4⟩
      · exact h7 q hq r hr
    have hs : s = first := by
      apply le_antisymm
      · exact e1 ▸ (hall q1 hq1 r1 hr1).1
      · apply hlow
        rcases h5 with h5 | ⟨q, hq, r, hr, h5⟩
        · exact ⟨m, by simp, rx, hrx, hrx'.trans h5.symm⟩
        · exact ⟨q, by simp [hq], r, hr, h5⟩
    have he : e = last := by
      apply le_antisymm
      · apply hup
        rcases h6 with h6 | ⟨q, hq, r, hr, h6⟩
        · exact ⟨m, by simp, ry, hry, hry'.trans h6.symm⟩
        · exact ⟨q, by simp [hq], r, hr, h6⟩
      · exact e2 ▸ (hall q2 hq2 r2 hr2).2
    subst hs he
    refine ⟨h1, ?_⟩
    unfold storedGroupFrame
    rw [List.map_map, List.map_cons, Function.comp_apply, hf, unionFrames, timeframeStep]
    exact h2

/-- C118. With `use_uptime=False` the energy of all meters is divided by the time from the first to the last reading of all of them. -/
theorem C118_frame_partial {ι : Type} (M : ι → StoredMeter) (m : ι) (rest : List ι) (A : ι → String) (L K : ι → List (Int × Rat))
    (h : ∀ q ∈ m :: rest, HasReadings (M q) (A q) (L q) (K q)) (first last : Int) (hfl : HomeSpan L (m :: rest) first last)
    (cs : Int) (hcs : 0 < cs) (period : Int) (hper : 0 < period) :
    storedGroupAverage ((m :: rest).map M) TF.blank false false period cs =
      .ok (some (groupMean M A K none none m rest period (last - first))) := by
  obtain ⟨hlt, hf⟩ := frame_group M A L K (m :: rest) (by simp) h first last hfl
  have hall : ∀ k : List (Int × Rat), readIn none none k = k := fun k => List.filter_eq_self.2 (fun _ _ => rfl)
  have htd : storedGroupTime ((m :: rest).map M) (mk' none none) false cs = .ok (last - first) := by
    unfold storedGroupTime
    simp only [Bool.false_eq_true, if_false]
    rw [show mk' none none = TF.blank from rfl, hf]
    rfl
  have hg := average_group M m rest A L K h none none cs hcs false period hper _ htd
  obtain ⟨⟨_, _, _, f, _, hk⟩, h2⟩ := h m (by simp)
  rw [if_neg (by omega), hall, if_neg (by rw [hk, List.length_map]; omega)] at hg
  exact hg

/-! ### The description of a home -/

/-- The greatest sample period of some meters. -/
def LongestPeriod {ι : Type} (H : ι → HomeMeter) (ms : List ι) (p : Rat) : Prop := IsGreatest {q | ∃ m ∈ ms, (H m).samplePeriod = q} p

theorem homePeriod_max {ι : Type} (H : ι → HomeMeter) (ms : List ι) (p : Rat) (h : LongestPeriod H ms p) : homePeriod (ms.map H) = .ok p := by
  have key : ∀ (l : List ι) (v : Rat), IsGreatest {q | q = v ∨ ∃ m ∈ l, (H m).samplePeriod = q}
      ((l.map H).foldl (fun p x => max p x.samplePeriod) v) := by
    intro l
    induction l with
    | nil => intro v; exact ⟨.inl rfl, by rintro q (rfl | ⟨m, hm, _⟩) <;> simp_all⟩
    | cons x l ih =>
      intro v
      rw [List.map_cons, List.foldl_cons]
      obtain ⟨h1, h2⟩ := ih (max v (H x).samplePeriod)
      refine ⟨?_, ?_⟩
      · rcases h1 with h1 | ⟨m, hm, h1⟩
        · rcases max_choice v (H x).samplePeriod with hc | hc
          · exact .inl (h1.trans hc)
          · exact .inr ⟨x, by simp, (h1.trans hc).symm⟩
        · exact .inr ⟨m, by simp [hm], h1⟩
      · rintro q (rfl | ⟨m, hm, rfl⟩)
        · exact le_trans (le_max_left _ _) (h2 (.inl rfl))
        · rcases List.mem_cons.1 hm with rfl | hm
          · exact le_trans (le_max_right _ _) (h2 (.inl rfl))
          · exact h2 (.inr ⟨m, hm, rfl⟩)
  cases ms with
  | nil =>
    obtain ⟨⟨m, hm, _⟩, _⟩ := h
    cases hm
  | cons m ms =>
    have hset : {q | q = (H m).samplePeriod ∨ ∃ x ∈ ms, (H x).samplePeriod = q} = {q | ∃ x ∈ m :: ms, (H x).samplePeriod = q} := by
      ext q
      constructor
      · rintro (rfl | ⟨x, hx, h⟩)
        · exact ⟨m, by simp, rfl⟩
        · exact ⟨x, by simp [hx], h⟩
      · rintro ⟨x, hx, hv⟩
        rcases List.mem_cons.1 hx with rfl | hx
        · exact .inl hv.symm
        · exact .inr ⟨x, hx, hv⟩
    have := key ms (H m).samplePeriod
    rw [hset] at this
    show Except.ok _ = Except.ok p
    rw [this.unique h]

/-- C118. The description of a home without the expensive statistics: the numbers of meters count the disabled ones; the time frame is
that from the first to the last reading of all meters in use; uptime and its share of the time frame are those of the first mains
meter, and the daily energy is that of all mains over the uptime of the first one. -/
theorem C118_describe_partial {ι : Type} (H : ι → HomeMeter) (meters disabled : List ι) (A : ι → String) (L K : ι → List (Int × Rat))
    (h : ∀ q ∈ meters, HasReadings (H q).stored (A q) (L q) (K q))
    (m : ι) (rest : List ι) (hm : meters.filter (fun q => (H q).site) = m :: rest) (hmsp : 0 ≤ (H m).stored.maxSamplePeriod)
    (p q : Rat) (hp : LongestPeriod H (meters.filter (fun q => (H q).site)) p) (hq : LongestPeriod H (meters.filter (fun q => !(H q).site)) q)
    (first last : Int) (hfl : HomeSpan L meters first last) (cs : Int) (hcs : 0 < cs)
    (up : Int) (hup : up = coveredTime (H m).stored.maxSamplePeriod ((L m).map Prod.fst)) :
    describeHome (meters.map H) (disabled.map H) TF.blank cs = .ok
      { totalMeters := meters.length + disabled.length
        siteMeters := meters.countP (fun q => (H q).site) + disabled.countP (fun q => (H q).site)
        mainsSamplePeriod := p
        submeterSamplePeriod := q
        start := some first
        stop := some last
        duration := some (last - first)
        mainsUptime := up
        proportionUptime := some ((up : Rat) / ((last - first : Int) : Rat))
        averagePerDay := if up = 0 then none
          else some (groupMean (fun q => (H q).stored) A K none none m rest (86400 * 1000000000) up) } := by
  have hmem : ∀ x ∈ m :: rest, x ∈ meters := by
    intro x hx
    rw [← hm] at hx
    exact (List.mem_filter.1 hx).1
  have hm' : m ∈ meters := hmem m (by simp)
  obtain ⟨hlt, hf⟩ := frame_group (fun q => (H q).stored) A L K meters (by
    rintro rfl
    cases hm') h first last hfl
  obtain ⟨⟨ht, hac, hinc, f, hfl', hk⟩, h2⟩ := h m hm'
  have hall : ∀ k : List (Int × Rat), readIn none none k = k := fun k => List.filter_eq_self.2 (fun _ _ => rfl)
  have hu := C113_whole_partial (H m).stored.maxSamplePeriod hmsp (A m) (L m) hinc h2 cs hcs
  rw [← ht, ← hup] at hu
  have hav := (C118_average_partial (fun q => (H q).stored) m rest A L K (fun x hx => h x (hmem x hx)) hmsp none none cs hcs dayNs (by decide)).2.2
  rw [hall, coveredWithin_all, ← hup] at hav
  have hav' := hav h2 (by rintro ⟨r, _, hr, _⟩; cases hr)
  have e1 : (meters.map H).filter (fun q => q.site) = H m :: rest.map H := by
    rw [List.filter_map, ← List.map_cons, ← hm]
    rfl
  have e2 : (meters.map H).filter (fun q => !q.site) = (meters.filter (fun q => !(H q).site)).map H := by
    rw [List.filter_map]
    rfl
  have e3 : (meters.map H).map HomeMeter.stored = meters.map (fun q => (H q).stored) := by
    rw [List.map_map]
    rfl
  have e4 : (H m :: rest.map H).map HomeMeter.stored = (m :: rest).map (fun q => (H q).stored) := by
    rw [← List.map_cons, List.map_map]
    rfl
  have hp' := homePeriod_max H _ _ hp
  rw [hm, List.map_cons] at hp'
  unfold describeHome
  simp only [e1, hp', e2, homePeriod_max H _ _ hq, e3, hf]
  rw [e4]
  have htd : (mk' (some first) (some last)).timedelta = some (last - first) := rfl
  simp only [List.map_cons (f := fun q => (H q).stored), storedGroupUptime, hu, htd]
  simp only [uptimeShare, if_neg (show ¬ last - first = 0 by omega)]
  rw [← List.map_cons (f := fun q => (H q).stored), show TF.blank = mk' none none from rfl, hav']
  simp only [List.length_append, List.length_map, List.filter_append, List.countP_eq_length_filter, List.filter_map]
  rfl

/-- C118. The share of uptime in a description is between zero and one. It is one exactly if the first mains meter has the first and the
last reading of the home and no two successive readings further apart than its `max_sample_period`. -/
theorem C118_share {ι : Type} (H : ι → HomeMeter) (meters disabled : List ι) (A : ι → String) (L K : ι → List (Int × Rat))
    (h : ∀ q ∈ meters, HasReadings (H q).stored (A q) (L q) (K q))
    (m : ι) (rest : List ι) (hm : meters.filter (fun q => (H q).site) = m :: rest) (hmsp : 0 ≤ (H m).stored.maxSamplePeriod)
    (p q : Rat) (hp : LongestPeriod H (meters.filter (fun q => (H q).site)) p) (hq : LongestPeriod H (meters.filter (fun q => !(H q).site)) q)
    (first last : Int) (hfl : HomeSpan L meters first last) (cs : Int) (hcs : 0 < cs) :
    ∃ d share, describeHome (meters.map H) (disabled.map H) TF.blank cs = .ok d ∧ d.proportionUptime = some share ∧ 0 ≤ share ∧ share ≤ 1 ∧
      (share = 1 ↔ (∃ r ∈ L m, r.1 = first) ∧ (∃ r ∈ L m, r.1 = last) ∧
        Consecutive (fun s t => t - s ≤ (H m).stored.maxSamplePeriod) ((L m).map Prod.fst)) := by
  have hm' : m ∈ meters := by
    have : m ∈ meters.filter (fun q => (H q).site) := by rw [hm]; simp
    exact (List.mem_filter.1 this).1
  refine ⟨_, _, C118_describe_partial H meters disabled A L K h m rest hm hmsp p q hp hq first last hfl cs hcs _ rfl, rfl, ?_⟩
  obtain ⟨⟨ht, hac, hinc, f, hf, hk⟩, h2⟩ := h m hm'
  have hlt := (frame_group (fun q => (H q).stored) A L K meters (by
    rintro rfl
    cases hm') h first last hfl).1
  obtain ⟨x, y, hxy, ⟨ry, hry, hry'⟩, hb, hhd, hgl, _⟩ := table_frame (A m) (L m) hinc h2
  obtain ⟨tl, htl⟩ : ∃ tl, (L m).map Prod.fst = x :: tl := by
    cases hl : L m with
    | nil => rw [hl] at hhd; simp at hhd
    | cons r l =>
      rw [hl] at hhd
      simp only [List.head?_cons, Option.map_some, Option.some.injEq] at hhd
      exact ⟨l.map Prod.fst, by rw [List.map_cons, hhd]⟩
  have hs : (x :: tl).Pairwise (· < ·) := by rw [← htl, List.pairwise_map]; exact hinc
  have hl : (x :: tl).getLast? = some y := by rw [← htl, List.getLast?_map]; exact hgl
  obtain ⟨b1, b2, b3⟩ := coveredTime_bounds (H m).stored.maxSamplePeriod x y tl hs hl
  rw [← htl] at b1 b2 b3
  obtain ⟨rx, hrx, hrx'⟩ : ∃ r ∈ L m, r.1 = x := by
    have : x ∈ (L m).map Prod.fst := by rw [htl]; simp
    obtain ⟨r, hr, h⟩ := List.mem_map.1 this
    exact ⟨r, hr, h⟩
  have hfx : first ≤ x := hfl.1.2 ⟨m, hm', rx, hrx, hrx'⟩
  have hyl : y ≤ last := hfl.2.2 ⟨m, hm', ry, hry, hry'⟩
  generalize coveredTime (H m).stored.maxSamplePeriod ((L m).map Prod.fst) = c at b1 b2 b3
  have hpos : (0 : Rat) < ((last - first : Int) : Rat) := by exact_mod_cast (by omega : (0 : Int) < last - first)
  have hc0 : (0 : Rat) ≤ (c : Rat) := by exact_mod_cast b1
  refine ⟨by positivity, ?_, ?_⟩
  · rw [div_le_one hpos]
    exact_mod_cast (by omega : c ≤ last - first)
  · rw [div_eq_one_iff_eq hpos.ne']
    constructor
    · intro hc
      have hc' : c = last - first := by exact_mod_cast hc
      exact ⟨⟨rx, hrx, by omega⟩, ⟨ry, hry, by omega⟩, b3.1 (by omega)⟩
    · rintro ⟨⟨r, hr, hr'⟩, ⟨r2, hr2, hr2'⟩, hcons⟩
      have h1 := (hb r hr).1
      have h3 := (hb r2 hr2).2
      have h4 := b3.2 hcons
      exact_mod_cast (by omega : c = last - first)

/-! ### REDD -/

/-- The meters of the channels of a REDD home: the channels 1 and 2 are the mains. -/
def reddHome (sort : List (Int × Option Rat) → List (Int × Option Rat)) (tree : RawTree (Option Rat)) (house : Nat)
    (ms : Nat → List Measurement) (msp : Nat → Int) (period : Nat → Rat) (chan : Nat) : HomeMeter :=
  ⟨reddMeter sort tree house ms msp chan, chan = 1 || chan = 2, period chan⟩

/-- The AC type that `convert_redd` gives to a channel. -/
def reddAc (c : Nat) : String := if c = 1 ∨ c = 2 then "apparent" else "active"

/-- The readings in the files of the channels. -/
structure ReddFiles (tree : RawTree (Option Rat)) (house : Nat) (chans : List Nat) (file order : Nat → List (Int × Rat))
    (ms : Nat → List Measurement) (f : Nat → Rat → Rat) : Prop where
  house_le : house ≤ 9
  chans_le : ∀ c ∈ chans, 1 ≤ c ∧ c ≤ 99
  files : ∀ c ∈ chans, ChannelFile tree house c (asFile (file c)) ∧ (order c).Perm (file c) ∧
    (order c).Pairwise (fun x y => x.1 < y.1) ∧ 2 ≤ (file c).length
  limits : ∀ c ∈ chans, LimitedBy (ms c) ("power", reddAc c) (f c)

theorem redd_readings {sort : List (Int × Option Rat) → List (Int × Option Rat)} (hs : SortsByTime sort)
    {tree : RawTree (Option Rat)} (hx : ExpectedTree tree) {house : Nat} {chans : List Nat} {file order : Nat → List (Int × Rat)}
    {ms : Nat → List Measurement} {f : Nat → Rat → Rat} (h : ReddFiles tree house chans file order ms f) (msp : Nat → Int)
    (c : Nat) (hc : c ∈ chans) :
    HasReadings (reddMeter sort tree house ms msp c) (reddAc c)
      (reddReadings (order c) id) (reddReadings (order c) (f c)) := by
  obtain ⟨h1, h2, h3, h4⟩ := h.files c hc
  refine ⟨redd_stored hs hx house c h.house_le (h.chans_le c hc).2 (file c) (order c) h1 h2 h3 _ rfl ms msp (f c) (h.limits c hc), ?_⟩
  unfold reddReadings
  rw [List.length_map, h2.length_eq]
  exact h4

/-- C118. The energy of a group of channels of a REDD home: that of the readings of all of them in the window, in order of time and
limited as the devices say, if all are mains or none is; NaN if only some are. -/
theorem C118_redd_partial {sort : List (Int × Option Rat) → List (Int × Option Rat)} (hs : SortsByTime sort)
    {tree : RawTree (Option Rat)} (hx : ExpectedTree tree) {house : Nat} {chans : List Nat} {file order : Nat → List (Int × Rat)}
    {ms : Nat → List Measurement} {f : Nat → Rat → Rat} (h : ReddFiles tree house chans file order ms f) (msp : Nat → Int)
    (hne : chans ≠ []) (a b : Option Int) (hin : ∀ c ∈ chans, 2 ≤ (readIn a b (reddReadings (order c) (f c))).length)
    (cs : Int) (hcs : 0 < cs) :
    (∀ ac, (∀ c ∈ chans, reddAc c = ac) → storedGroupEnergy (chans.map (reddMeter sort tree house ms msp)) (mk' a b) cs =
      .ok (some [(ac, some (chans.map (fun c => kwhOf ((msp c : Rat) / 1000000000) (readIn a b (reddReadings (order c) (f c))))).sum)])) ∧
    ((∃ c ∈ chans, ∃ d ∈ chans, reddAc c ≠ reddAc d) →
      storedGroupEnergy (chans.map (reddMeter sort tree house ms msp)) (mk' a b) cs = .ok (some [(reddAc (chans.head hne), none)])) := by
  cases chans with
  | nil => exact absurd rfl hne
  | cons m rest =>
    have ht := C118_total_partial (reddMeter sort tree house ms msp) m rest reddAc (fun c => reddReadings (order c) id)
      (fun c => reddReadings (order c) (f c)) (fun c hc => redd_readings hs hx h msp c hc) a b cs hcs
    have hm := hin m (by simp)
    rw [if_neg (by omega)] at ht
    rw [ht]
    refine ⟨fun ac hac => ?_, fun ⟨c, hc, d, hd, hcd⟩ => ?_⟩
    · rw [if_pos, hac m (by simp)]
      · rfl
      · intro c hc
        exact ⟨(hac c (by simp [hc])).trans (hac m (by simp)).symm, hin c (by simp [hc])⟩
    · rw [if_neg]
      · rfl
      · intro hr
        have hall : ∀ c ∈ m :: rest, reddAc c = reddAc m := by
          intro c hc
          rcases List.mem_cons.1 hc with rfl | hc
          · rfl
          · exact (hr c hc).1
        exact hcd ((hall c hc).trans (hall d hd).symm)

/-- C118. The description of a REDD home with two mains and other channels. -/
theorem C118_redd_describe_partial {sort : List (Int × Option Rat) → List (Int × Option Rat)} (hs : SortsByTime sort)
    {tree : RawTree (Option Rat)} (hx : ExpectedTree tree) {house : Nat} {subs : List Nat} {file order : Nat → List (Int × Rat)}
    {ms : Nat → List Measurement} {f : Nat → Rat → Rat} (h : ReddFiles tree house (1 :: 2 :: subs) file order ms f)
    (hsubs : ∀ c ∈ subs, 3 ≤ c) (hsome : subs ≠ []) (msp : Nat → Int) (hmsp : 0 ≤ msp 1) (mains sub : Rat) 
    (first last : Int) (hfl : HomeSpan (fun c => reddReadings (order c) id) (1 :: 2 :: subs) first last) (cs : Int) (hcs : 0 < cs)
    (up : Int) (hup : up = coveredTime (msp 1) ((reddReadings (order 1) id).map Prod.fst)) (hup0 : up ≠ 0) :
    describeHome ((1 :: 2 :: subs).map (reddHome sort tree house ms msp (fun c => if c = 1 ∨ c = 2 then mains else sub))) [] TF.blank cs
      = .ok
      { totalMeters := 2 + subs.length
        siteMeters := 2
        mainsSamplePeriod := mains
        submeterSamplePeriod := sub
        start := some first
        stop := some last
        duration := some (last - first)
        mainsUptime := up
        proportionUptime := some ((up : Rat) / ((last - first : Int) : Rat))
        averagePerDay := some [("apparent", .num ((kwhOf ((msp 1 : Rat) / 1000000000) (reddReadings (order 1) (f 1)) +
          kwhOf ((msp 2 : Rat) / 1000000000) (reddReadings (order 2) (f 2))) * (86400 * 1000000000) / up))] } := by
  have hsub : ∀ c ∈ subs, ¬ (c = 1 ∨ c = 2) := fun c hc => by
    have := hsubs c hc
    omega
  have hsite : ∀ c ∈ subs, (reddHome sort tree house ms msp (fun c => if c = 1 ∨ c = 2 then mains else sub) c).site = false := by
    intro c hc
    have := hsub c hc
    simp only [not_or] at this
    simp [reddHome, this]
  have hf1 : (1 :: 2 :: subs).filter (fun c => (reddHome sort tree house ms msp (fun c => if c = 1 ∨ c = 2 then mains else sub) c).site)
      = [1, 2] := by
    rw [List.filter_cons_of_pos (by rfl), List.filter_cons_of_pos (by rfl), List.filter_eq_nil_iff.2]
    intro c hc
    simp [hsite c hc]
  have hf2 : (1 :: 2 :: subs).filter (fun c => !(reddHome sort tree house ms msp (fun c => if c = 1 ∨ c = 2 then mains else sub) c).site)
      = subs := by
    rw [List.filter_cons_of_neg (by simp [reddHome]), List.filter_cons_of_neg (by simp [reddHome]), List.filter_eq_self.2]
    intro c hc
    simp [hsite c hc]
  have hd := C118_describe_partial (reddHome sort tree house ms msp (fun c => if c = 1 ∨ c = 2 then mains else sub)) (1 :: 2 :: subs) []
    reddAc (fun c => reddReadings (order c) id) (fun c => reddReadings (order c) (f c)) (fun c hc => redd_readings hs hx h msp c hc)
    1 [2] hf1 hmsp mains sub (by
      rw [hf1]
      refine ⟨⟨1, by simp, by simp [reddHome]⟩, ?_⟩
      rintro q ⟨c, hc, rfl⟩
      simp only [List.mem_cons, List.not_mem_nil, or_false] at hc
      simp [reddHome, hc]) (by
      rw [hf2]
      obtain ⟨c, hc⟩ := List.exists_mem_of_ne_nil subs hsome
      refine ⟨⟨c, hc, if_neg (hsub c hc)⟩, ?_⟩
      rintro q ⟨d, hd, rfl⟩
      exact (if_neg (hsub d hd)).le) first last hfl cs hcs up hup
  rw [if_neg hup0] at hd
  rw [show ([] : List HomeMeter) = ([] : List Nat).map (reddHome sort tree house ms msp (fun c => if c = 1 ∨ c = 2 then mains else sub))
    from rfl, hd]
  have hall : ∀ k : List (Int × Rat), readIn none none k = k := fun k => List.filter_eq_self.2 (fun _ _ => rfl)
  have hr : AllReport reddAc (fun c => reddReadings (order c) (f c)) none none (reddAc 1) [2] := by
    intro c hc
    obtain rfl := List.mem_singleton.1 hc
    refine ⟨rfl, ?_⟩
    rw [hall]
    have := (redd_readings (sort := sort) hs hx h msp 2 (by simp)).2
    unfold reddReadings at this ⊢
    rwa [List.length_map] at this ⊢
  congr 2
  · simp only [List.length_cons, List.length_nil]
    omega
  · rw [List.countP_eq_length_filter, hf1]
    rfl
  · unfold groupMean
    rw [if_pos hr]
    simp only [sumKwh, hall, List.map_cons, List.map_nil, List.sum_cons, List.sum_nil, add_zero]
    norm_num
    exact ⟨rfl, rfl⟩

/-- C118. A home without mains, or without submeters, cannot be described (`AttributeError`, `ValueError`), and with a meter without a
table neither (`KeyError`); a group without meters has no average energy, and no energy. -/
theorem C118_errors (meters disabled : List HomeMeter) (window : TF) (cs : Int) :
    ((∀ m ∈ meters, m.site = false) → describeHome meters disabled window cs = .error .attributeError) ∧
    ((∃ m ∈ meters, m.site = true) → (∀ m ∈ meters, m.site = true) → describeHome meters disabled window cs = .error .valueError) ∧
    ((∃ m ∈ meters, m.site = true) → (∃ m ∈ meters, m.site = false) → ∀ m rest, meters = m :: rest → m.stored.table = none →
      describeHome meters disabled window cs = .error .keyError) ∧
    storedGroupEnergy [] window cs = .ok none ∧
    (∀ up period, storedGroupAverage [] window false up period cs = .error .attributeError) ∧
    ∀ ms up period, storedGroupAverage ms window true up period cs = .error .runtimeError := by
  refine ⟨fun h => ?_, fun ⟨m, hm, hs⟩ h => ?_, fun ⟨m, hm, hs⟩ ⟨n, hn, hns⟩ x xs hx hxt => ?_, rfl, ?_, ?_⟩
  · unfold describeHome
    rw [List.filter_eq_nil_iff.2 (fun m hm => by simp [h m hm])]
  · unfold describeHome
    cases hf : meters.filter (fun m => m.site) with
    | nil => exact absurd hs (List.filter_eq_nil_iff.1 hf m hm)
    | cons y ys =>
      rw [List.filter_eq_nil_iff.2 (fun m hm => by simp [h m hm])]
      rfl
  · unfold describeHome
    cases hf : meters.filter (fun m => m.site) with
    | nil => exact absurd hs (List.filter_eq_nil_iff.1 hf m hm)
    | cons y ys =>
      cases hg : meters.filter (fun m => !m.site) with
      | nil => exact absurd hns (by simpa using List.filter_eq_nil_iff.1 hg n hn)
      | cons z zs =>
        simp only [homePeriod]
        have : storedGroupFrame (meters.map HomeMeter.stored) window = .error .keyError := by
          rw [hx]
          unfold storedGroupFrame StoredMeter.frame
          simp only [List.map_cons, hxt, unionFrames]
        rw [this]
  · intro up period
    cases up <;> rfl
  · intro ms up period
    rfl

/-! ### Counterexamples and examples -/

/-- C118, negation: the second phase of the mains reads while the first has a gap. A home with a constant load on the second phase only,
of 2.4 kWh per day, has 4.8 kWh of mains per day, because the uptime is that of the first phase. -/
theorem C118_uptime_counterexample :
    let first := exStored 10 [(0, 0), (10000000000, 0), (30000000000, 0), (40000000000, 0)]
    let second := exStored 10 [(0, 100), (10000000000, 100), (20000000000, 100), (30000000000, 100), (40000000000, 100)]
    storedGroupAverage [second] TF.blank false true dayNs 100 = .ok (some [("active", .num (12 / 5))]) ∧
    storedGroupAverage [first, second] TF.blank false true dayNs 100 = .ok (some [("active", .num (24 / 5))]) := by
  refine ⟨?_, ?_⟩ <;> decide +kernel

/-- C118, negation: if the first meter has no readings in the window the energy of the group is an empty series, and if another one has
none it is NaN, although the remaining meter measured energy. -/
theorem C118_silent_counterexample :
    let silent := exStored 10 [(100000000000, 0), (110000000000, 0), (120000000000, 0)]
    let load := exStored 10 [(0, 3600000), (10000000000, 3600000)]
    storedGroupEnergy [load] (mk' none (some 50000000000)) 100 = .ok (some [("active", some 10)]) ∧
    storedGroupEnergy [silent, load] (mk' none (some 50000000000)) 100 = .ok (some []) ∧
    storedGroupEnergy [load, silent] (mk' none (some 50000000000)) 100 = .ok (some [("active", none)]) := by
  refine ⟨?_, ?_, ?_⟩ <;> decide +kernel

/-- The hypotheses can be met, here with the readings as index of a meter. -/
example : ∀ q ∈ [[(0, 100), (10000000000, 100)], [(0, 300), (10000000000, 300)]], HasReadings (exStored 10 q) "active" q q := by
  intro q hq
  simp only [List.mem_cons, List.not_mem_nil, or_false] at hq
  rcases hq with rfl | rfl <;> exact ⟨exStored_as _ _ (by decide) (by decide +kernel), by decide⟩
example : storedGroupAverage [exStored 10 [(0, 100), (10000000000, 100)], exStored 10 [(0, 300), (10000000000, 300)]] TF.blank false true
    dayNs 100 = .ok (some [("active", .num (48 / 5))]) := by decide +kernel

theorem home_files : ReddFiles homeTree 1 [1, 2, 3] homeFile homeOrder homeMeasures (fun _ v => v) := by
  refine ⟨by decide, by decide, ?_, ?_⟩
  · intro c hc
    simp only [List.mem_cons, List.not_mem_nil, or_false] at hc
    rcases hc with rfl | rfl | rfl
    · exact ⟨⟨[("channel_1.dat".toList, some [(10, some 100), (0, some 100), (20, some 100)]),
        ("channel_2.dat".toList, some [(0, some 300), (10, some 300), (20, some 300)]),
        ("channel_3.dat".toList, some [(20, some 7), (0, some 100), (10, some 100)])],
        by decide +kernel, by decide +kernel⟩, by decide +kernel, by decide +kernel, by decide⟩
    · exact ⟨⟨[("channel_1.dat".toList, some [(10, some 100), (0, some 100), (20, some 100)]),
        ("channel_2.dat".toList, some [(0, some 300), (10, some 300), (20, some 300)]),
        ("channel_3.dat".toList, some [(20, some 7), (0, some 100), (10, some 100)])],
        by decide +kernel, by decide +kernel⟩, by decide +kernel, by decide +kernel, by decide⟩
    · exact ⟨⟨[("channel_1.dat".toList, some [(10, some 100), (0, some 100), (20, some 100)]),
        ("channel_2.dat".toList, some [(0, some 300), (10, some 300), (20, some 300)]),
        ("channel_3.dat".toList, some [(20, some 7), (0, some 100), (10, some 100)])],
        by decide +kernel, by decide +kernel⟩, by decide +kernel, by decide +kernel, by decide⟩
  · intro c _
    exact ⟨[], _, [], rfl, by simp, rfl, rfl, .inr ⟨.inl rfl, fun _ => rfl⟩⟩

/-- The small REDD home uses 9.6 kWh a day. -/
example {sort : List (Int × Option Rat) → List (Int × Option Rat)} (hs : SortsByTime sort) (cs : Int) (hcs : 0 < cs) :
    describeHome ([1, 2, 3].map (reddHome sort homeTree 1 homeMeasures (fun _ => 10000000000) (fun c => if c = 1 ∨ c = 2 then 1 else 3)))
      [] TF.blank cs = .ok ⟨3, 2, 1, 3, some 0, some 20000000000, some 20000000000, 20000000000, some 1,
        some [("apparent", .num (48 / 5))]⟩ := by
  have hr : ∀ c ∈ [1, 2, 3], (reddReadings (homeOrder c) id).map Prod.fst = [0, 10000000000, 20000000000] := by decide +kernel
  have hspan : HomeSpan (fun c => reddReadings (homeOrder c) id) [1, 2, 3] 0 20000000000 := by
    have hb : ∀ c ∈ [1, 2, 3], ∀ r ∈ reddReadings (homeOrder c) id, (0 : Int) ≤ r.1 ∧ r.1 ≤ 20000000000 := by decide +kernel
    refine ⟨⟨⟨1, by simp, (0, 100), by decide +kernel, rfl⟩, ?_⟩, ⟨1, by simp, (20000000000, 100), by decide +kernel, rfl⟩, ?_⟩
    · rintro t ⟨c, hc, r, hr, rfl⟩
      exact (hb c hc r hr).1
    · rintro t ⟨c, hc, r, hr, rfl⟩
      exact (hb c hc r hr).2
  rw [C118_redd_describe_partial hs homeTree_expected home_files (by simp) (by simp) (fun _ => 10000000000) (by simp) 1 3
    0 20000000000 hspan cs hcs 20000000000 (by rw [hr 1 (by simp)]; decide +kernel) (by decide)]
  congr 2
  · decide +kernel
  · congr 3
    decide +kernel

/-- Its three channels have no energy together, because the mains are of another AC type. -/
example {sort : List (Int × Option Rat) → List (Int × Option Rat)} (hs : SortsByTime sort) (cs : Int) (hcs : 0 < cs) :
    storedGroupEnergy ([1, 2, 3].map (reddMeter sort homeTree 1 homeMeasures (fun _ => 10000000000))) (mk' none none) cs =
      .ok (some [("apparent", none)]) :=
  (C118_redd_partial hs homeTree_expected home_files _ (by simp) none none (by decide +kernel) cs hcs).2
    ⟨1, by simp, 3, by simp, by decide +kernel⟩

end Nilmtk
