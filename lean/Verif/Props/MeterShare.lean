import Verif.Model.MeterShare
import Verif.Props.Describe
import Verif.Props.Fraction
import Verif.Props.FromList
/-!
C119: from the files of REDD to the fraction of the energy of each meter and the meters with the most energy.
-/
namespace Nilmtk
open TF

/-! ### Specification -/

/-- `ac` is the most preferred AC type of power, and of whatever else the device measures with an AC type. -/
def BestType (ms : List Measurement) (ac : String) : Prop :=
  (∀ q ∈ ms, q.pq ∈ physicalQuantities) ∧ IsBest ms ("power", ac) ∧ ∀ c, IsBest ms c → c.2 = ac

/-- `sort_values`: the same entries, in ascending or descending order, NaN last. -/
def SortsValues (sort : Bool → List (Int × Option Rat) → List (Int × Option Rat)) : Prop :=
  ∀ asc s, (sort asc s).Perm s ∧ (sort asc s).Pairwise (fun x y => RankBefore asc x.2 y.2)

/-- The energy of a meter in the window. -/
def ownKwh {ι : Type} (M : ι → StoredMeter) (K : ι → List (Int × Rat)) (a b : Option Int) (q : ι) : Rat :=
  kwhOf (M q).seconds (readIn a b (K q))

/-! ### The best AC type -/

theorem best_columns (ms : List Measurement) (ac : String) (h : BestType ms ac) :
    ∃ cols, convertToCols ms .none (.one "best") none = .ok cols ∧ ("power", ac) ∈ cols ∧ typesOf cols = [acNamed ac] := by
  obtain ⟨h1, h2, h3⟩ := h
  have hne : ac ≠ "" := by
    rintro rfl
    have := h2.2.1
    simp [acTypeNames] at this
  rcases C36_best ms .none h1 (by simp) (by simp [Req.Valid]) with ⟨cols, hc, _, hm⟩ | ⟨_, hno⟩
  · have hmem : ("power", ac) ∈ cols := (hm _).2 ⟨trivial, h2⟩
    refine ⟨cols, hc, hmem, ?_⟩
    have hall : ∀ t ∈ ((cols.map Prod.snd).filter (fun t => t ≠ "")).dedup, t = ac := by
      intro t ht
      rw [List.mem_dedup, List.mem_filter] at ht
      obtain ⟨c, hc, rfl⟩ := List.mem_map.1 ht.1
      exact h3 c ((hm c).1 hc).2
    have hin : ac ∈ ((cols.map Prod.snd).filter (fun t => t ≠ "")).dedup := by
      rw [List.mem_dedup, List.mem_filter]
      exact ⟨List.mem_map.2 ⟨_, hmem, rfl⟩, by simpa using hne⟩
    have hnd : ((cols.map Prod.snd).filter (fun t => t ≠ "")).dedup.Nodup := List.nodup_dedup _
    unfold typesOf
    generalize ((cols.map Prod.snd).filter (fun t => t ≠ "")).dedup = l at hall hin hnd
    match l, hall, hin, hnd with
    | [], _, hin, _ => cases hin
    | [x], hall, _, _ => rw [hall x (by simp)]; rfl
    | x :: y :: l, hall, _, hnd =>
      rw [hall x (by simp), hall y (by simp)] at hnd
      simp at hnd
  · exact absurd ⟨trivial, h2⟩ (hno _)

/-- C119. `total_energy(ac_type='best')` of a meter is its energy. -/
theorem C119_best_partial {m : StoredMeter} {ac : String} {l k : List (Int × Rat)} (h : HasReadings m ac l k)
    (hb : BestType m.measurements ac) (a b : Option Int) (cs : Int) (hcs : 0 < cs) :
    m.energyBest (mk' a b) cs = .ok (if (readIn a b k).length < 2 then [] else [(ac, some (kwhOf m.seconds (readIn a b k)))]) := by
  obtain ⟨cols, hc, hmem, ht⟩ := best_columns _ _ hb
  have hac := h.1.2.1
  have htab := h.1.1
  have he := energy_stored h a b cs hcs
  unfold StoredMeter.energy at he
  have hsame : m.table.map (fun t => { t with columns := t.columns.filter (fun c => c ∈ cols) }) = m.table := by
    rw [htab]
    simp [asTable, hmem]
  unfold StoredMeter.energyBest
  rw [hc]
  simp only [hsame, ht]
  cases hr : meterTotalEnergy m.table m.measurements ((m.maxSamplePeriod : Rat) / 1000000000) (mk' a b) none cs with
  | error e => rw [hr] at he; cases he
  | ok res =>
    rw [hr] at he
    simp only [Except.ok.injEq] at he
    have hpick : pickBest [acNamed ac] res = .ok res := by
      obtain ⟨⟨_, _, hinc, f, hf, _⟩, hlt⟩ := h
      have hm := C112_meter_partial m.measurements ((m.maxSamplePeriod : Rat) / 1000000000) ac hac f hf l hinc hlt a b cs hcs
      rw [← htab, hr] at hm
      rw [Except.ok.inj hm]
      split
      · rfl
      · simp [pickBest, pickTypes]
    simp only [hpick, he]

/-! ### Fractions -/

theorem one_energy (ac : String) (hac : ac = "active" ∨ ac = "apparent" ∨ ac = "reactive") (e : Rat) :
    maxSkipNan (acTypeNames.map (fun k => ((([(ac, some e)] : EnergySeries).lookup k).getD none))) = some e := by
  rcases hac with rfl | rfl | rfl <;> simp [acTypeNames, List.lookup, maxSkipNan]

theorem no_energy : maxSkipNan (acTypeNames.map (fun k => ((([] : EnergySeries).lookup k).getD none))) = none := by
  simp [acTypeNames, maxSkipNan]

theorem kwhOf_nonneg (msp : Int) (hmsp : 0 ≤ msp) (l : List (Int × Rat)) (hinc : l.Pairwise (fun x y => x.1 < y.1))
    (hv : ∀ r ∈ l, 0 ≤ r.2) : 0 ≤ kwhOf ((msp : Rat) / 1000000000) l := by
  induction l with
  | nil => simp [kwhOf]
  | cons x l ih =>
    cases l with
    | nil => simp [kwhOf]
    | cons y l =>
      have hxy : x.1 < y.1 := (List.pairwise_cons.1 hinc).1 y (by simp)
      have h1 : (0 : Rat) ≤ ((y.1 - x.1 : Int) : Rat) := by exact_mod_cast (by omega : 0 ≤ y.1 - x.1)
      have h2 : (0 : Rat) ≤ (msp : Rat) := by exact_mod_cast hmsp
      have hpos : 0 ≤ min (((y.1 - x.1 : Int) : Rat) / 1000000000) ((msp : Rat) / 1000000000) := le_min (by positivity) (by positivity)
      have h3 := hv x (by simp)
      have h4 := ih (List.pairwise_cons.1 hinc).2 (fun r hr => hv r (List.mem_cons_of_mem _ hr))
      rw [kwhOf_cons]
      positivity

/-- C119. The fraction of a meter is its energy over that of all meters, all in the window; it is NaN for a meter without two readings
in the window, and for all if there is no energy. -/
theorem C119_fractions_partial {ι : Type} (I : ι → Int) (M : ι → StoredMeter) (A : ι → String) (L K : ι → List (Int × Rat)) (ms : List ι)
    (h : ∀ q ∈ ms, HasReadings (M q) (A q) (L q) (K q)) (hb : ∀ q ∈ ms, BestType (M q).measurements (A q)) (a b : Option Int)
    (cs : Int) (hcs : 0 < cs) :
    storedFractions (ms.map (fun q => (I q, M q))) (mk' a b) cs = .ok (ms.map (fun q =>
      (I q, if (readIn a b (K q)).length < 2 ∨ sumKwh M K a b ms = 0 then none
        else some (ownKwh M K a b q / sumKwh M K a b ms)))) := by
  set col : ι → Int × Energies := fun q => (I q, acTypeNames.map (fun k => (((if (readIn a b (K q)).length < 2 then []
    else [(A q, some (ownKwh M K a b q))]) : EnergySeries).lookup k).getD none)) with hcol
  have hmap : mapE (fun p => bestColumn p (mk' a b) cs) (ms.map (fun q => (I q, M q))) = .ok (ms.map col) := by
    rw [mapE_ok, List.forall₂_map_right_iff, List.forall₂_map_left_iff, List.forall₂_same]
    intro q hq
    unfold bestColumn
    rw [C119_best_partial (h q hq) (hb q hq) a b cs hcs]
    rfl
  have hmax : ∀ q ∈ ms, maxSkipNan (col q).2 = if (readIn a b (K q)).length < 2 then none else some (ownKwh M K a b q) := by
    intro q hq
    rw [hcol]
    dsimp only
    split
    · exact no_energy
    · exact one_energy _ (h q hq).1.2.1 _
  have htot : totalOf (ms.map col) = sumKwh M K a b ms := by
    unfold totalOf bests sumKwh
    clear hmap h hb
    induction ms with
    | nil => rfl
    | cons q ms ih =>
      have hq := hmax q (by simp)
      have ih' := ih (fun p hp => hmax p (List.mem_cons_of_mem _ hp))
      simp only [List.map_cons, List.filterMap_cons, hq, List.sum_cons]
      by_cases hs : (readIn a b (K q)).length < 2
      · simp only [if_pos hs]
        rw [ih', kwhOf_few _ _ hs, zero_add]
      · simp only [if_neg hs, List.sum_cons]
        rw [ih']
        rfl
  unfold storedFractions
  rw [hmap]
  simp only
  rw [fractionPerMeter_eq, htot, List.map_map]
  congr 1
  apply List.map_congr_left
  intro q hq
  simp only [Function.comp_apply, hmax q hq]
  by_cases hs : (readIn a b (K q)).length < 2
  · rw [if_pos hs, if_pos (.inl hs)]
    rfl
  · rw [if_neg hs]
    by_cases h0 : sumKwh M K a b ms = 0
    · rw [if_pos (.inr h0)]
      simp [divTotal, h0, hcol]
    · rw [if_neg (by tauto)]
      simp [divTotal, h0, hcol]

theorem nonneg_kwh {ι : Type} (M : ι → StoredMeter) (A : ι → String) (L K : ι → List (Int × Rat)) (q : ι)
    (h : HasReadings (M q) (A q) (L q) (K q)) (hmsp : 0 ≤ (M q).maxSamplePeriod) (hv : ∀ r ∈ K q, 0 ≤ r.2) (a b : Option Int) :
    0 ≤ ownKwh M K a b q := by
  obtain ⟨⟨_, _, hinc, f, _, hk⟩, _⟩ := h
  refine kwhOf_nonneg _ hmsp _ ?_ (fun r hr => hv r (List.mem_of_mem_filter hr))
  refine List.Pairwise.sublist List.filter_sublist ?_
  rw [hk, List.pairwise_map]
  exact hinc

/-- C119. If no reading is negative and some meter used energy, the fractions that are not NaN are between zero and one and add up to
one. -/
theorem C119_whole {ι : Type} (I : ι → Int) (M : ι → StoredMeter) (A : ι → String) (L K : ι → List (Int × Rat)) (ms : List ι)
    (h : ∀ q ∈ ms, HasReadings (M q) (A q) (L q) (K q)) (hb : ∀ q ∈ ms, BestType (M q).measurements (A q))
    (hmsp : ∀ q ∈ ms, 0 ≤ (M q).maxSamplePeriod) (hv : ∀ q ∈ ms, ∀ r ∈ K q, 0 ≤ r.2) (a b : Option Int)
    (hsome : ∃ q ∈ ms, ownKwh M K a b q ≠ 0) (cs : Int) (hcs : 0 < cs) :
    ∃ fr, storedFractions (ms.map (fun q => (I q, M q))) (mk' a b) cs = .ok fr ∧ (fr.filterMap Prod.snd).sum = 1 ∧
      ∀ p ∈ fr, ∀ v, p.2 = some v → 0 ≤ v ∧ v ≤ 1 := by
  refine ⟨_, C119_fractions_partial I M A L K ms h hb a b cs hcs, ?_⟩
  have hnn : ∀ q ∈ ms, 0 ≤ ownKwh M K a b q := fun q hq => nonneg_kwh M A L K q (h q hq) (hmsp q hq) (hv q hq) a b
  have hle : ∀ q ∈ ms, ownKwh M K a b q ≤ sumKwh M K a b ms := by
    intro q hq
    apply List.single_le_sum
    · intro x hx
      obtain ⟨p, hp, rfl⟩ := List.mem_map.1 hx
      exact hnn p hp
    · exact List.mem_map.2 ⟨q, hq, rfl⟩
  have hpos : 0 < sumKwh M K a b ms := by
    obtain ⟨q, hq, hne⟩ := hsome
    exact lt_of_lt_of_le (lt_of_le_of_ne (hnn q hq) (Ne.symm hne)) (hle q hq)
  constructor
  · have key : ∀ (T : Rat) (l : List ι), ((l.map (fun q => (I q, if (readIn a b (K q)).length < 2 ∨ T = 0 then none
        else some (ownKwh M K a b q / T)))).filterMap Prod.snd).sum = if T = 0 then 0 else sumKwh M K a b l / T := by
      intro T l
      by_cases h0 : T = 0
      · rw [if_pos h0]
        induction l with
        | nil => rfl
        | cons q l ih => simpa [h0] using ih
      · rw [if_neg h0]
        induction l with
        | nil => simp [sumKwh]
        | cons q l ih =>
          rw [List.map_cons, List.filterMap_cons]
          have hs : sumKwh M K a b (q :: l) = ownKwh M K a b q + sumKwh M K a b l := by simp [sumKwh, ownKwh]
          rw [hs]
          by_cases hq : (readIn a b (K q)).length < 2
          · simp only [if_pos (Or.inl hq)]
            rw [ih, show ownKwh M K a b q = 0 from kwhOf_few _ _ hq, zero_add]
          · simp only [if_neg (show ¬ ((readIn a b (K q)).length < 2 ∨ T = 0) by tauto)]
            rw [List.sum_cons, ih, add_div]
    rw [key, if_neg hpos.ne', div_self hpos.ne']
  · intro p hp v hpv
    obtain ⟨q, hq, rfl⟩ := List.mem_map.1 hp
    dsimp only at hpv
    split at hpv
    · cases hpv
    · cases hpv
      exact ⟨div_nonneg (hnn q hq) hpos.le, (div_le_one hpos).2 (hle q hq)⟩

/-! ### The top meters -/

theorem perm_of_map {ι β : Type} (g : ι → β) (ms : List ι) (s : List β) (h : s.Perm (ms.map g)) :
    ∃ l : List ι, l.Perm ms ∧ s = l.map g := by
  induction ms generalizing s with
  | nil => exact ⟨[], .refl _, by simpa using h⟩
  | cons m ms ih =>
    have hmem : g m ∈ s := h.mem_iff.2 (by simp)
    obtain ⟨x, y, rfl⟩ := List.append_of_mem hmem
    have h2 : (x ++ y).Perm (ms.map g) := by
      have := List.perm_middle.symm.trans h
      rw [List.map_cons] at this
      exact (List.perm_cons _).1 this
    obtain ⟨l, hl, he⟩ := ih _ h2
    refine ⟨l.take x.length ++ m :: l.drop x.length, ?_, ?_⟩
    · refine List.perm_middle.trans ((List.perm_cons _).2 ?_)
      rw [List.take_append_drop]
      exact hl
    · rw [List.map_append, List.map_cons, List.map_take, List.map_drop, ← he]
      simp

/-- C119. `select_top_k(k)` selects `k` meters, or all if there are fewer; none of those left out used more energy in the window, or has
two readings there while one selected has not. With `asc=True` none of those left out used less. -/
theorem C119_top_k_partial {ι : Type} (I : ι → Int) (M : ι → StoredMeter) (A : ι → String) (L K : ι → List (Int × Rat)) (ms : List ι)
    (h : ∀ q ∈ ms, HasReadings (M q) (A q) (L q) (K q)) (hb : ∀ q ∈ ms, BestType (M q).measurements (A q)) (a b : Option Int)
    (hpos : 0 < sumKwh M K a b ms) {sort : Bool → List (Int × Option Rat) → List (Int × Option Rat)} (hs : SortsValues sort)
    (k : Nat) (asc : Bool) (cs : Int) (hcs : 0 < cs) :
    ∃ top rest : List ι, storedTopK sort (ms.map (fun q => (I q, M q))) k asc (mk' a b) cs = .ok (top.map I, rest.map I) ∧
      (top ++ rest).Perm ms ∧ top.length = min k ms.length ∧
      ∀ t ∈ top, ∀ r ∈ rest, 2 ≤ (readIn a b (K r)).length → 2 ≤ (readIn a b (K t)).length ∧
        if asc then ownKwh M K a b t ≤ ownKwh M K a b r else ownKwh M K a b r ≤ ownKwh M K a b t := by
  set g : ι → Int × Option Rat := fun q => (I q, if (readIn a b (K q)).length < 2 ∨ sumKwh M K a b ms = 0 then none
        else some (ownKwh M K a b q / sumKwh M K a b ms)) with hg
  have hf := C119_fractions_partial I M A L K ms h hb a b cs hcs
  obtain ⟨hp, hsort⟩ := hs asc (ms.map g)
  obtain ⟨l, hl, he⟩ := perm_of_map g ms _ hp
  rw [he] at hsort
  refine ⟨l.take k, l.drop k, ?_, by rw [List.take_append_drop]; exact hl, by rw [List.length_take, hl.length_eq], ?_⟩
  · unfold storedTopK
    rw [hf]
    simp only
    rw [show (ms.map (fun q => (I q, if (readIn a b (K q)).length < 2 ∨ sumKwh M K a b ms = 0 then none
        else some (ownKwh M K a b q / sumKwh M K a b ms)))) = ms.map g from rfl, he]
    unfold pyTake pyDrop
    rw [if_pos (by omega), if_pos (by omega), Int.toNat_natCast, ← List.map_take, ← List.map_drop, List.map_map, List.map_map]
    rfl
  · intro t ht r hr hrep
    rw [← List.take_append_drop k l, List.map_append, List.pairwise_append] at hsort
    have hrank := hsort.2.2 (g t) (List.mem_map_of_mem ht) (g r) (List.mem_map_of_mem hr)
    have hgr : (g r).2 = some (ownKwh M K a b r / sumKwh M K a b ms) := by
      rw [hg]
      exact if_neg (by
        rintro (h | h)
        · omega
        · exact hpos.ne' h)
    rw [hgr] at hrank
    by_cases hrt : (readIn a b (K t)).length < 2
    · have : (g t).2 = none := if_pos (.inl hrt)
      rw [this] at hrank
      exact absurd hrank (by simp [RankBefore])
    · have hgt : (g t).2 = some (ownKwh M K a b t / sumKwh M K a b ms) := by
        rw [hg]
        exact if_neg (by
          rintro (h | h)
          · exact hrt h
          · exact hpos.ne' h)
      rw [hgt] at hrank
      refine ⟨by omega, ?_⟩
      unfold RankBefore at hrank
      cases asc with
      | false =>
        simp only [Bool.false_eq_true, if_false] at hrank ⊢
        exact (div_le_div_iff_of_pos_right hpos).1 hrank
      | true =>
        simp only [if_true] at hrank ⊢
        exact (div_le_div_iff_of_pos_right hpos).1 hrank

/-! ### REDD -/

/-- C119. The fractions of channels of a REDD home: the energy of the readings of the file in the window, in order of time and limited
as the device says, over that of all channels of the group. -/
theorem C119_redd_partial {sort : List (Int × Option Rat) → List (Int × Option Rat)} (hs : SortsByTime sort)
    {tree : RawTree (Option Rat)} (hx : ExpectedTree tree) {house : Nat} {chans : List Nat} {file order : Nat → List (Int × Rat)}
    {ms : Nat → List Measurement} {f : Nat → Rat → Rat} (h : ReddFiles tree house chans file order ms f)
    (hb : ∀ c ∈ chans, BestType (ms c) (reddAc c)) (msp : Nat → Int) (a b : Option Int) (cs : Int) (hcs : 0 < cs) :
    storedFractions (chans.map (fun c : Nat => ((c : Int), reddMeter sort tree house ms msp c))) (mk' a b) cs = .ok (chans.map (fun c : Nat =>
      ((c : Int),
        if (readIn a b (reddReadings (order c) (f c))).length < 2 ∨
          (chans.map (fun d => kwhOf ((msp d : Rat) / 1000000000) (readIn a b (reddReadings (order d) (f d))))).sum = 0 then none
        else some (kwhOf ((msp c : Rat) / 1000000000) (readIn a b (reddReadings (order c) (f c))) /
          (chans.map (fun d => kwhOf ((msp d : Rat) / 1000000000) (readIn a b (reddReadings (order d) (f d))))).sum)))) :=
  C119_fractions_partial (fun c : Nat => (c : Int)) (reddMeter sort tree house ms msp) reddAc (fun c => reddReadings (order c) id)
    (fun c => reddReadings (order c) (f c)) chans (fun c hc => redd_readings hs hx h msp c hc) hb a b cs hcs

/-- C119. The channels of a REDD home that `select_top_k(k)` selects, and those it leaves out. -/
theorem C119_redd_top_k_partial {sort : List (Int × Option Rat) → List (Int × Option Rat)} (hs : SortsByTime sort)
    {tree : RawTree (Option Rat)} (hx : ExpectedTree tree) {house : Nat} {chans : List Nat} {file order : Nat → List (Int × Rat)}
    {ms : Nat → List Measurement} {f : Nat → Rat → Rat} (h : ReddFiles tree house chans file order ms f)
    (hb : ∀ c ∈ chans, BestType (ms c) (reddAc c)) (msp : Nat → Int) (a b : Option Int)
    (hpos : 0 < (chans.map (fun d => kwhOf ((msp d : Rat) / 1000000000) (readIn a b (reddReadings (order d) (f d))))).sum)
    {sortValues : Bool → List (Int × Option Rat) → List (Int × Option Rat)} (hv : SortsValues sortValues)
    (k : Nat) (asc : Bool) (cs : Int) (hcs : 0 < cs) :
    ∃ top rest : List Nat, storedTopK sortValues (chans.map (fun c : Nat => ((c : Int), reddMeter sort tree house ms msp c))) k asc
        (mk' a b) cs = .ok (top.map (fun c : Nat => (c : Int)), rest.map (fun c : Nat => (c : Int))) ∧
      (top ++ rest).Perm chans ∧ top.length = min k chans.length ∧
      ∀ t ∈ top, ∀ r ∈ rest, 2 ≤ (readIn a b (reddReadings (order r) (f r))).length →
        2 ≤ (readIn a b (reddReadings (order t) (f t))).length ∧
        if asc then kwhOf ((msp t : Rat) / 1000000000) (readIn a b (reddReadings (order t) (f t))) ≤
            kwhOf ((msp r : Rat) / 1000000000) (readIn a b (reddReadings (order r) (f r)))
        else kwhOf ((msp r : Rat) / 1000000000) (readIn a b (reddReadings (order r) (f r))) ≤
            kwhOf ((msp t : Rat) / 1000000000) (readIn a b (reddReadings (order t) (f t))) :=
  C119_top_k_partial (fun c : Nat => (c : Int)) (reddMeter sort tree house ms msp) reddAc (fun c => reddReadings (order c) id)
    (fun c => reddReadings (order c) (f c)) chans (fun c hc => redd_readings hs hx h msp c hc) hb a b hpos hv k asc cs hcs

/-! ### Errors -/

/-- C119. The exceptions: a meter none of whose measurements has an AC type is a `MeasurementError`, one without a table a `KeyError`.
An exception of one meter is one of the fractions and of the selection. -/
theorem C119_errors (m : StoredMeter) (hpq : ∀ q ∈ m.measurements, q.pq ∈ physicalQuantities) (window : TF) (cs : Int) :
    ((∀ c, ¬ IsBest m.measurements c) → m.energyBest window cs = .error .measurementError) ∧
    ((∃ c, IsBest m.measurements c) → m.table = none → m.energyBest window cs = .error .keyError) ∧
    ∀ e, m.energyBest window cs = .error e → ∀ i before after columns,
      mapE (fun p => bestColumn p window cs) before = .ok columns →
      storedFractions (before ++ (i, m) :: after) window cs = .error e ∧
      ∀ sort k asc, storedTopK sort (before ++ (i, m) :: after) k asc window cs = .error e := by
  have hbest := C36_best m.measurements .none hpq (by simp) (by simp [Req.Valid])
  refine ⟨fun hno => ?_, fun ⟨c, hc⟩ ht => ?_, fun e he i before after columns hcol => ?_⟩
  · rcases hbest with ⟨cols, _, hne, hm⟩ | ⟨herr, _⟩
    · obtain ⟨c, hc⟩ := List.exists_mem_of_ne_nil _ hne
      exact absurd ((hm c).1 hc).2 (hno c)
    · unfold StoredMeter.energyBest
      rw [herr]
  · rcases hbest with ⟨cols, hcols, _, _⟩ | ⟨_, hno⟩
    · unfold StoredMeter.energyBest
      rw [hcols, ht]
      rfl
    · exact absurd ⟨trivial, hc⟩ (hno c)
  · have hm : mapE (fun p => bestColumn p window cs) (before ++ (i, m) :: after) = .error e := by
      induction before generalizing columns with
      | nil =>
        simp only [List.nil_append, mapE, bestColumn, he]
      | cons p before ih =>
        simp only [mapE] at hcol
        simp only [List.cons_append, mapE]
        cases hp : bestColumn p window cs with
        | error e' => rw [hp] at hcol; cases hcol
        | ok v =>
          rw [hp] at hcol
          simp only at hcol ⊢
          cases hb : mapE (fun p => bestColumn p window cs) before with
          | error e' => rw [hb] at hcol; cases hcol
          | ok l => rw [ih l hb]
    have hf : storedFractions (before ++ (i, m) :: after) window cs = .error e := by
      unfold storedFractions
      rw [hm]
    exact ⟨hf, fun sort k asc => by unfold storedTopK; rw [hf]⟩

/-! ### Counterexamples and examples -/

/-- C119, negation: two meters with the same readings of apparent power. The device of the first one also lists active power, which the
table does not have: it is left out, and all energy is that of the second one. -/
theorem C119_listed_counterexample :
    let readings : List (Int × Rat) := [(0, 3600000), (10000000000, 3600000), (20000000000, 0)]
    let listed : StoredMeter := ⟨some (asTable "apparent" readings), [⟨"power", some "apparent", none, none⟩,
      ⟨"power", some "active", none, none⟩], 10000000000⟩
    let plain : StoredMeter := ⟨some (asTable "apparent" readings), [⟨"power", some "apparent", none, none⟩], 10000000000⟩
    storedFractions [(1, listed), (2, plain)] TF.blank 100 = .ok [(1, none), (2, some 1)] ∧
    storedFractions [(1, plain), (2, plain)] TF.blank 100 = .ok [(1, some (1 / 2)), (2, some (1 / 2))] := by
  refine ⟨?_, ?_⟩ <;> decide +kernel

/-- C119, negation: a device whose energy has another AC type than its power. -/
theorem C119_types_counterexample :
    let m : StoredMeter := ⟨some (asTable "active" [(0, 3600000), (10000000000, 3600000)]), [⟨"power", some "active", none, none⟩,
      ⟨"energy", some "apparent", none, none⟩], 10000000000⟩
    m.energy TF.blank 100 = .ok [("active", some 10)] ∧ m.energyBest TF.blank 100 = .error .keyError := by
  refine ⟨?_, ?_⟩ <;> decide +kernel

/-- C119, negation: the fractions are not those of one kind of energy: active energy of one meter and apparent energy of another are
added. -/
theorem C119_mixed_counterexample :
    let load := exStored 10 [(0, 3600000), (10000000000, 3600000)]
    let other : StoredMeter := ⟨some (asTable "apparent" [(0, 7200000), (10000000000, 7200000)]),
      [⟨"power", some "apparent", none, none⟩], 10000000000⟩
    storedFractions [(1, load), (2, other)] TF.blank 100 = .ok [(1, some (1 / 3)), (2, some (2 / 3))] := by
  decide +kernel

theorem home_best : ∀ c ∈ [1, 2, 3], BestType (homeMeasures c) (reddAc c) := by
  intro c hc
  simp only [List.mem_cons, List.not_mem_nil, or_false] at hc
  rcases hc with rfl | rfl | rfl <;> refine ⟨by decide, ⟨by decide, by decide, ?_⟩, ?_⟩ <;>
    simp [IsBest, availableColumns, homeMeasures, reddAc, acTypeNames]

/-- The mains of the home of two phases have a quarter and three quarters of their energy, and the submeter as much as the first. -/
example {sort : List (Int × Option Rat) → List (Int × Option Rat)} (hs : SortsByTime sort) (cs : Int) (hcs : 0 < cs) :
    storedFractions ([1, 2, 3].map (fun c : Nat => ((c : Int), reddMeter sort homeTree 1 homeMeasures (fun _ => 10000000000) c)))
      (mk' none none) cs = .ok [(1, some (1 / 5)), (2, some (3 / 5)), (3, some (1 / 5))] := by
  rw [show ([1, 2, 3].map (fun c : Nat => ((c : Int), reddMeter sort homeTree 1 homeMeasures (fun _ => 10000000000) c))) =
    ([1, 2, 3] : List Nat).map (fun c : Nat => ((c : Int), reddMeter sort homeTree 1 homeMeasures (fun _ => 10000000000) c)) from rfl,
    C119_redd_partial hs homeTree_expected home_files home_best (fun _ => 10000000000) none none cs hcs]
  decide +kernel

/-- Some way to sort values. -/
def sortByRank (asc : Bool) : List (Int × Option Rat) → List (Int × Option Rat)
  | [] => []
  | x :: l => insertByRank asc x (sortByRank asc l)
where
  insertByRank (asc : Bool) (x : Int × Option Rat) : List (Int × Option Rat) → List (Int × Option Rat)
    | [] => [x]
    | y :: l =>
      if (match x.2, y.2 with
        | some u, some v => if asc then decide (u ≤ v) else decide (v ≤ u)
        | none, some _ => false
        | _, none => true) then x :: y :: l
      else y :: insertByRank asc x l

theorem sortByRank_sorts : SortsValues sortByRank := by
  have hrank : ∀ (asc : Bool) (x y : Option Rat), (match x, y with
        | some u, some v => if asc then decide (u ≤ v) else decide (v ≤ u)
        | none, some _ => false
        | _, none => true) = true ↔ RankBefore asc x y := by
    intro asc x y
    cases x <;> cases y <;> cases asc <;> simp [RankBefore]
  have htrans : ∀ (asc : Bool) (x y z : Option Rat), RankBefore asc x y → RankBefore asc y z → RankBefore asc x z := by
    intro asc x y z
    cases x <;> cases y <;> cases z <;> cases asc <;> simp only [RankBefore] <;> intros <;>
      first | trivial | contradiction | (simp only [Bool.false_eq_true, if_false, if_true] at *; linarith)
  have htotal : ∀ (asc : Bool) (x y : Option Rat), ¬ RankBefore asc x y → RankBefore asc y x := by
    intro asc x y
    cases x <;> cases y <;> cases asc <;> simp [RankBefore] <;> exact fun h => h.le
  have hins : ∀ (asc : Bool) (x : Int × Option Rat) (l : List (Int × Option Rat)),
      (sortByRank.insertByRank asc x l).Perm (x :: l) ∧ (l.Pairwise (fun x y => RankBefore asc x.2 y.2) →
        (sortByRank.insertByRank asc x l).Pairwise (fun x y => RankBefore asc x.2 y.2)) := by
    intro asc x l
    induction l with
    | nil => exact ⟨.refl _, fun _ => by simp [sortByRank.insertByRank]⟩
    | cons y l ih =>
      unfold sortByRank.insertByRank
      by_cases h : RankBefore asc x.2 y.2
      · rw [if_pos ((hrank asc _ _).2 h)]
        refine ⟨.refl _, fun hp => List.pairwise_cons.2 ⟨fun z hz => ?_, hp⟩⟩
        rcases List.mem_cons.1 hz with rfl | hz
        · exact h
        · exact htrans asc _ _ _ h ((List.pairwise_cons.1 hp).1 z hz)
      · rw [if_neg (fun hc => h ((hrank asc _ _).1 hc))]
        refine ⟨((List.perm_cons y).2 ih.1).trans (List.Perm.swap x y l), fun hp => List.pairwise_cons.2 ⟨fun z hz => ?_,
          ih.2 (List.pairwise_cons.1 hp).2⟩⟩
        rcases List.mem_cons.1 (ih.1.mem_iff.1 hz) with rfl | hz
        · exact htotal asc _ _ h
        · exact (List.pairwise_cons.1 hp).1 z hz
  intro asc s
  induction s with
  | nil => exact ⟨.refl _, by simp [sortByRank]⟩
  | cons x s ih =>
    have := hins asc x (sortByRank asc s)
    exact ⟨this.1.trans ((List.perm_cons x).2 ih.1), this.2 ih.2⟩

/-- The second phase of the mains has the most energy. -/
example {sort : List (Int × Option Rat) → List (Int × Option Rat)} (hs : SortsByTime sort) (cs : Int) (hcs : 0 < cs) :
    storedTopK sortByRank (([1, 2, 3] : List Nat).map (fun c : Nat => ((c : Int), reddMeter sort homeTree 1 homeMeasures
      (fun _ => 10000000000) c))) 1 false (mk' none none) cs = .ok ([2], [1, 3]) := by
  unfold storedTopK
  rw [C119_redd_partial hs homeTree_expected home_files home_best (fun _ => 10000000000) none none cs hcs]
  decide +kernel

end Nilmtk
