import Verif.Model.MeterAverage
import Verif.Props.MeterUptime
import Verif.Props.MeterEnergy
/-!
C116: from the files of REDD to the average energy per period of a meter.
-/
namespace Nilmtk
open TF

/-! ### Specification -/

/-- The gaps: how many intervals between successive readings are longer than `msp`. -/
def gapCount (msp : Int) (l : List Int) : Nat := (l.zip l.tail).countP (fun p => decide (msp < p.2 - p.1))

/-- The kWh used in a period (in nanoseconds) at a power in watts. -/
def kwhAt (watts : Rat) (period : Int) : Rat := watts * period / 3600000000000000

/-- The duration of the part of a window from the first to the last reading; zero if there is no such part. -/
def frameTime (a b : Option Int) (first last : Int) : Int :=
  max 0 ((b.map (min · last)).getD last - (a.map (max · first)).getD first)

/-! ### Lemmas -/

theorem average_num (td period : Int) (name : AC) (e : Rat) (ht : td ≠ 0) (hp : period ≠ 0) :
    averageEnergy false td period (energySeriesOf [(name, e)]) = .ok (some [(acString name, .num (e * period / td))]) := by
  have h1 : (td : Rat) ≠ 0 := by exact_mod_cast ht
  have h2 : (period : Rat) ≠ 0 := by exact_mod_cast hp
  have h3 : (td : Rat) / 1000000000 / ((period : Rat) / 1000000000) ≠ 0 := by positivity
  unfold averageEnergy energySeriesOf
  simp only [Bool.false_eq_true, if_false, if_neg ht, List.map_cons, List.map_nil, divNan, fdiv, if_neg h3]
  congr 5
  field_simp

theorem acString_named (ac : String) (hac : ac = "active" ∨ ac = "apparent" ∨ ac = "reactive") : acString (acNamed ac) = ac := by
  rcases hac with rfl | rfl | rfl <;> rfl

theorem frame_duration (a b : Option Int) (first last : Int) :
    ((mk' a b).intersection (mk' (some first) (some last))).timedelta.getD 0 = frameTime a b first last := by
  rw [window_and_table]
  unfold frameTime
  by_cases h : (a.map (max · first)).getD first ≥ (b.map (min · last)).getD last
  · rw [if_pos h, max_eq_left (by omega)]; rfl
  · rw [if_neg h, max_eq_right (by omega)]; rfl

/-! ### Theorems -/

/-- C116. The average energy per period of uptime: the energy of the readings in the window times the length of the period over
the time the readings cover, for the AC type of the table, whatever the chunk size. It is NaN if they cover none, and a
`ValueError` if the window ends at a reading after a long gap which is followed by a short one. -/
theorem C116_uptime_partial (ms : List Measurement) (msp : Int) (hmsp : 0 ≤ msp) (ac : String)
    (hac : ac = "active" ∨ ac = "apparent" ∨ ac = "reactive") (f : Rat → Rat) (hf : LimitedBy ms ("power", ac) f)
    (l : List (Int × Rat)) (hinc : l.Pairwise (fun x y => x.1 < y.1)) (h2 : 2 ≤ l.length) (a b : Option Int)
    (period : Int) (hper : 0 < period) (cs : Int) (hcs : 0 < cs) (inside : List (Int × Rat))
    (hin : inside = l.filter (fun r => between a b r.1)) :
    (inside.length < 2 → meterAverage (some (asTable ac l)) ms msp (mk' a b) false true period cs = .ok none) ∧
    (2 ≤ inside.length → EndsAtLone msp a b (l.map Prod.fst) →
      meterAverage (some (asTable ac l)) ms msp (mk' a b) false true period cs = .error .valueError) ∧
    (2 ≤ inside.length → ¬ EndsAtLone msp a b (l.map Prod.fst) →
      meterAverage (some (asTable ac l)) ms msp (mk' a b) false true period cs =
        .ok (if coveredWithin msp a b (l.map Prod.fst) = 0 then none
          else some [(ac, .num (kwhOf ((msp : Rat) / 1000000000) (inside.map (fun r => (r.1, f r.2))) * period /
            coveredWithin msp a b (l.map Prod.fst)))])) := by
  subst hin
  obtain ⟨u1, u2⟩ := C113_uptime msp hmsp ac l hinc h2 a b cs hcs
  have hE := C112_meter_partial ms ((msp : Rat) / 1000000000) ac hac f hf l hinc h2 a b cs hcs
  refine ⟨fun h => ?_, fun h h' => ?_, fun h h' => ?_⟩
  · unfold meterAverage averageTime
    simp only [Bool.false_eq_true, if_false, if_true, u1 h]
    rfl
  · unfold meterAverage averageTime
    simp only [Bool.false_eq_true, if_false, if_true, (u2 h).1 h']
  · unfold meterAverage averageTime
    simp only [Bool.false_eq_true, if_false, if_true, (u2 h).2 h']
    by_cases h0 : coveredWithin msp a b (l.map Prod.fst) = 0
    · rw [if_pos h0, if_pos h0, h0]; rfl
    · rw [if_neg h0, if_neg h0, hE, if_neg (by omega)]
      simp only
      rw [average_num _ _ _ _ h0 (by omega), acString_named ac hac]

/-- C116. The average energy per period of the time frame: the energy over the time from the first to the last reading, as far as
it is in the window. -/
theorem C116_frame_partial (ms : List Measurement) (msp : Int) (ac : String)
    (hac : ac = "active" ∨ ac = "apparent" ∨ ac = "reactive") (f : Rat → Rat) (hf : LimitedBy ms ("power", ac) f)
    (l : List (Int × Rat)) (hinc : l.Pairwise (fun x y => x.1 < y.1)) (h2 : 2 ≤ l.length) (first last : Int × Rat)
    (hfirst : l.head? = some first) (hlast : l.getLast? = some last) (a b : Option Int)
    (period : Int) (hper : 0 < period) (cs : Int) (hcs : 0 < cs) (inside : List (Int × Rat))
    (hin : inside = l.filter (fun r => between a b r.1)) :
    meterAverage (some (asTable ac l)) ms msp (mk' a b) false false period cs =
      .ok (if frameTime a b first.1 last.1 = 0 then none
        else if inside.length < 2 then some []
        else some [(ac, .num (kwhOf ((msp : Rat) / 1000000000) (inside.map (fun r => (r.1, f r.2))) * period /
          frameTime a b first.1 last.1))]) := by
  subst hin
  have hE := C112_meter_partial ms ((msp : Rat) / 1000000000) ac hac f hf l hinc h2 a b cs hcs
  obtain ⟨x, y, _, _, _, hx, hy, htf⟩ := table_frame ac l hinc h2
  rw [hfirst] at hx
  rw [hlast] at hy
  simp only [Option.map_some, Option.some.injEq] at hx hy
  subst hx hy
  unfold meterAverage averageTime
  simp only [Bool.false_eq_true, if_false, htf, frame_duration]
  by_cases h0 : frameTime a b first.1 last.1 = 0
  · rw [if_pos h0, if_pos h0, h0]; rfl
  · rw [if_neg h0, if_neg h0, hE]
    simp only
    by_cases hs : (l.filter (fun r => between a b r.1)).length < 2
    · rw [if_pos hs, if_pos hs]
      unfold averageEnergy energySeriesOf
      simp [h0]
    · rw [if_neg hs, if_neg hs, average_num _ _ _ _ h0 (by omega), acString_named ac hac]

theorem gapCount_cons (msp x y : Int) (l : List Int) :
    gapCount msp (x :: y :: l) = (if msp < y - x then 1 else 0) + gapCount msp (y :: l) := by
  unfold gapCount
  rw [List.tail_cons, List.zip_cons_cons, List.countP_cons]
  simp only [decide_eq_true_eq]
  rw [Nat.add_comm]
  rfl

theorem kwhOf_cons (m : Rat) (x y : Int × Rat) (l : List (Int × Rat)) :
    kwhOf m (x :: y :: l) = min (((y.1 - x.1 : Int) : Rat) / 1000000000) m * x.2 / 3600000 + kwhOf m (y :: l) := by
  simp only [kwhOf, List.tail_cons, List.zip_cons_cons, List.map_cons, List.sum_cons]
  ring

/-- The energy of a constant load: every gap counts for `max_sample_period`. -/
theorem kwhOf_constant (msp : Int) (watts : Rat) (l : List (Int × Rat)) (hw : ∀ r ∈ l, r.2 = watts) :
    kwhOf ((msp : Rat) / 1000000000) l =
      watts * ((coveredTime msp (l.map Prod.fst) + gapCount msp (l.map Prod.fst) * msp : Int) : Rat) / 3600000000000000 := by
  induction l with
  | nil => simp [kwhOf, coveredTime, gapCount]
  | cons x l ih =>
    cases l with
    | nil => simp [kwhOf, coveredTime, gapCount]
    | cons y l =>
      rw [kwhOf_cons, ih (fun r hr => hw r (List.mem_cons_of_mem _ hr)), hw x (by simp)]
      simp only [List.map_cons]
      rw [coveredTime_cons, gapCount_cons]
      by_cases h : y.1 - x.1 ≤ msp
      · rw [if_pos h, if_neg (by omega), min_eq_left (by
          have : ((y.1 - x.1 : Int) : Rat) ≤ (msp : Rat) := by exact_mod_cast h
          gcongr)]
        push_cast
        ring
      · rw [if_neg h, if_pos (by omega), min_eq_right (by
          have : (msp : Rat) ≤ ((y.1 - x.1 : Int) : Rat) := by exact_mod_cast (by omega : msp ≤ y.1 - x.1)
          gcongr)]
        push_cast
        ring

/-- The energy is between that of the least and that of the greatest power over the time covered, plus `max_sample_period` for
each gap. -/
theorem kwhOf_bounds (msp : Int) (lo hi : Rat) (l : List (Int × Rat)) (hmsp : 0 ≤ msp)
    (hinc : l.Pairwise (fun x y => x.1 < y.1)) (hb : ∀ r ∈ l, lo ≤ r.2 ∧ r.2 ≤ hi) :
    kwhOf ((msp : Rat) / 1000000000) (l.map (fun r => (r.1, lo))) ≤ kwhOf ((msp : Rat) / 1000000000) l ∧
    kwhOf ((msp : Rat) / 1000000000) l ≤ kwhOf ((msp : Rat) / 1000000000) (l.map (fun r => (r.1, hi))) := by
  induction l with
  | nil => simp
  | cons x l ih =>
    cases l with
    | nil => simp [kwhOf]
    | cons y l =>
      obtain ⟨i1, i2⟩ := ih (List.pairwise_cons.1 hinc).2 (fun r hr => hb r (List.mem_cons_of_mem _ hr))
      obtain ⟨b1, b2⟩ := hb x (by simp)
      have hxy : x.1 < y.1 := (List.pairwise_cons.1 hinc).1 y (by simp)
      have hpos : 0 ≤ min (((y.1 - x.1 : Int) : Rat) / 1000000000) ((msp : Rat) / 1000000000) := by
        apply le_min
        · have : (0 : Rat) ≤ ((y.1 - x.1 : Int) : Rat) := by exact_mod_cast (by omega : 0 ≤ y.1 - x.1)
          positivity
        · have : (0 : Rat) ≤ (msp : Rat) := by exact_mod_cast hmsp
          positivity
      simp only [List.map_cons] at i1 i2 ⊢
      rw [kwhOf_cons, kwhOf_cons, kwhOf_cons]
      simp only
      constructor <;> gcongr

/-- C116. The average of a constant load over its uptime: what it uses in a period, and more by `max_sample_period` for each
gap. -/
theorem C116_constant_partial (ms : List Measurement) (msp : Int) (hmsp : 0 ≤ msp) (ac : String)
    (hac : ac = "active" ∨ ac = "apparent" ∨ ac = "reactive") (f : Rat → Rat) (hf : LimitedBy ms ("power", ac) f)
    (l : List (Int × Rat)) (hinc : l.Pairwise (fun x y => x.1 < y.1)) (h2 : 2 ≤ l.length) (watts : Rat)
    (hw : ∀ r ∈ l, f r.2 = watts) (hcov : coveredTime msp (l.map Prod.fst) ≠ 0)
    (period : Int) (hper : 0 < period) (cs : Int) (hcs : 0 < cs) :
    meterAverage (some (asTable ac l)) ms msp TF.blank false true period cs =
      .ok (some [(ac, .num (kwhAt watts period *
        (1 + (gapCount msp (l.map Prod.fst) : Rat) * msp / coveredTime msp (l.map Prod.fst))))]) := by
  have hall : l.filter (fun r => between none none r.1) = l := List.filter_eq_self.2 (fun _ _ => rfl)
  have h := (C116_uptime_partial ms msp hmsp ac hac f hf l hinc h2 none none period hper cs hcs l hall.symm).2.2 h2 (by
    rintro ⟨r, _, h, _⟩; cases h)
  rw [coveredWithin_all, if_neg hcov] at h
  refine Eq.trans h ?_
  congr 5
  rw [kwhOf_constant msp watts _ (by
    intro r hr
    obtain ⟨q, hq, rfl⟩ := List.mem_map.1 hr
    exact hw q hq), List.map_map]
  rw [show (Prod.fst ∘ fun r : Int × Rat => (r.1, f r.2)) = Prod.fst from rfl]
  have h0 : (coveredTime msp (l.map Prod.fst) : Rat) ≠ 0 := by exact_mod_cast hcov
  unfold kwhAt
  push_cast
  field_simp

/-- C116. Without gaps the average is between what the least and what the greatest power uses in a period, with uptime and
with the time frame alike: the two are the same. -/
theorem C116_gapless (ms : List Measurement) (msp : Int) (ac : String)
    (hac : ac = "active" ∨ ac = "apparent" ∨ ac = "reactive") (f : Rat → Rat) (hf : LimitedBy ms ("power", ac) f)
    (l : List (Int × Rat)) (hinc : l.Pairwise (fun x y => x.1 < y.1)) (h2 : 2 ≤ l.length)
    (hgap : Consecutive (fun s t => t - s ≤ msp) (l.map Prod.fst)) (lo hi : Rat) (hb : ∀ r ∈ l, lo ≤ f r.2 ∧ f r.2 ≤ hi)
    (useUptime : Bool) (period : Int) (hper : 0 < period) (cs : Int) (hcs : 0 < cs) :
    ∃ q, meterAverage (some (asTable ac l)) ms msp TF.blank false useUptime period cs = .ok (some [(ac, .num q)]) ∧
      kwhAt lo period ≤ q ∧ q ≤ kwhAt hi period := by
  obtain ⟨first, rest, rfl⟩ : ∃ x r, l = x :: r := by
    cases l with
    | nil => simp at h2
    | cons x r => exact ⟨x, r, rfl⟩
  obtain ⟨last, hlast⟩ : ∃ y, (first :: rest).getLast? = some y := ⟨_, List.getLast?_eq_some_getLast (by simp)⟩
  have hsort : ((first :: rest).map Prod.fst).Pairwise (· < ·) := by rw [List.pairwise_map]; exact hinc
  have hlm : ((first :: rest).map Prod.fst).getLast? = some last.1 := by rw [List.getLast?_map, hlast]; rfl
  have hfl : first.1 < last.1 := by
    cases rest with
    | nil => simp at h2
    | cons y r =>
      rw [List.getLast?_cons_cons] at hlast
      exact (List.pairwise_cons.1 hinc).1 last (List.mem_of_getLast? hlast)
  have hmsp : 0 ≤ msp := by
    cases rest with
    | nil => simp at h2
    | cons y r =>
      have := (List.pairwise_cons.1 hinc).1 y (by simp)
      cases hgap with
      | cons _ _ _ h _ => omega
  obtain ⟨_, _, b3⟩ := coveredTime_bounds msp first.1 last.1 (rest.map Prod.fst) (by simpa using hsort) (by simpa using hlm)
  have hc : coveredTime msp ((first :: rest).map Prod.fst) = last.1 - first.1 := by simpa using b3.2 (by simpa using hgap)
  have hng : gapCount msp ((first :: rest).map Prod.fst) = 0 := by
    have : ∀ k : List Int, Consecutive (fun s t => t - s ≤ msp) k → gapCount msp k = 0 := by
      intro k hk
      induction hk with
      | nil => rfl
      | single a => rfl
      | cons a b k h _ ih => rw [gapCount_cons, ih, if_neg (by omega)]
    exact this _ hgap
  have hall : (first :: rest).filter (fun r => between none none r.1) = first :: rest := List.filter_eq_self.2 (fun _ _ => rfl)
  have hd : (0 : Rat) < ((last.1 - first.1 : Int) : Rat) := by exact_mod_cast (by omega : 0 < last.1 - first.1)
  have hp : (0 : Rat) < (period : Rat) := by exact_mod_cast hper
  have hval : ∀ w : Rat, kwhOf ((msp : Rat) / 1000000000) (((first :: rest).map (fun r => (r.1, f r.2))).map (fun r => (r.1, w))) =
      w * ((last.1 - first.1 : Int) : Rat) / 3600000000000000 := by
    intro w
    rw [kwhOf_constant msp w _ (by
      intro r hr
      obtain ⟨q, _, rfl⟩ := List.mem_map.1 hr
      rfl), List.map_map, List.map_map]
    rw [show ((Prod.fst ∘ fun r : Int × Rat => (r.1, w)) ∘ fun r : Int × Rat => (r.1, f r.2)) = Prod.fst from rfl, hc, hng]
    simp
  obtain ⟨k1, k2⟩ := kwhOf_bounds msp lo hi ((first :: rest).map (fun r => (r.1, f r.2))) hmsp (by
    rw [List.pairwise_map]; exact hinc) (by
    intro r hr
    obtain ⟨q, hq, rfl⟩ := List.mem_map.1 hr
    exact hb q hq)
  rw [hval] at k1 k2
  refine ⟨kwhOf ((msp : Rat) / 1000000000) ((first :: rest).map (fun r => (r.1, f r.2))) * period /
    ((last.1 - first.1 : Int) : Rat), ?_, ?_, ?_⟩
  · cases useUptime with
    | true =>
      have h := (C116_uptime_partial ms msp hmsp ac hac f hf _ hinc h2 none none period hper cs hcs _ hall.symm).2.2 h2 (by
        rintro ⟨r, _, h, _⟩; cases h)
      rw [coveredWithin_all, hc, if_neg (by omega)] at h
      exact h
    | false =>
      have h := C116_frame_partial ms msp ac hac f hf _ hinc h2 first last rfl hlast none none period hper cs hcs _ hall.symm
      have ht : frameTime none none first.1 last.1 = last.1 - first.1 := by
        unfold frameTime
        exact max_eq_right (by simp; omega)
      rw [ht, if_neg (by omega), if_neg (by omega)] at h
      exact h
  · rw [le_div_iff₀ hd]
    unfold kwhAt
    calc lo * period / 3600000000000000 * ((last.1 - first.1 : Int) : Rat)
        = lo * ((last.1 - first.1 : Int) : Rat) / 3600000000000000 * period := by ring
      _ ≤ _ := by gcongr
  · rw [div_le_iff₀ hd]
    unfold kwhAt
    calc _ ≤ hi * ((last.1 - first.1 : Int) : Rat) / 3600000000000000 * period := by gcongr
      _ = hi * period / 3600000000000000 * ((last.1 - first.1 : Int) : Rat) := by ring

/-- C116. From the files to the average: after converting REDD, the average energy per period of uptime of a meter is the energy
of the readings in the file of its channel over the time they cover (in seconds), whatever the order of the lines and the chunk
size. -/
theorem C116_redd_partial {sort : List (Int × Option Rat) → List (Int × Option Rat)} (hs : SortsByTime sort)
    {tree : RawTree (Option Rat)} (hx : ExpectedTree tree) (house chan : Nat) (hh : house ≤ 9) (hc : chan ≤ 99)
    (file order : List (Int × Rat)) (hf : ChannelFile tree house chan (asFile file)) (hp : order.Perm file)
    (hord : order.Pairwise (fun x y => x.1 < y.1)) (h2 : 2 ≤ file.length) (ac : String)
    (hac : ac = if chan = 1 ∨ chan = 2 then "apparent" else "active")
    (ms : List Measurement) (msp : Int) (hmsp : 0 ≤ msp) (f : Rat → Rat) (hlim : LimitedBy ms ("power", ac) f)
    (period : Int) (hper : 0 < period) (cs : Int) (hcs : 0 < cs) :
    meterAverage ((convertRedd sort (some tree)).1 (meterKey house chan)) ms (msp * 1000000000) TF.blank false true
        (period * 1000000000) cs =
      .ok (if coveredTime msp (order.map Prod.fst) = 0 then none
        else some [(ac, .num (kwhOfSeconds msp (order.map (fun r => (r.1, f r.2))) * period /
          coveredTime msp (order.map Prod.fst)))]) := by
  have hac' : ac = "active" ∨ ac = "apparent" ∨ ac = "reactive" := by rw [hac]; split <;> simp
  rw [redd_table hs hx house chan hh hc file order hf hp hord, ← hac]
  have hall : ∀ k : List (Int × Rat), k.filter (fun r => between none none r.1) = k := fun k => List.filter_eq_self.2 (fun _ _ => rfl)
  have hl : 2 ≤ (order.map (fun r => (r.1 * 1000000000, r.2))).length := by rw [List.length_map, hp.length_eq]; exact h2
  have h := (C116_uptime_partial ms (msp * 1000000000) (by omega) ac hac' f hlim _ (by
    rw [List.pairwise_map]
    exact hord.imp (fun h => by simp only; omega)) hl none none (period * 1000000000) (by omega) cs hcs _ (hall _).symm).2.2
    hl (by rintro ⟨r, _, h, _⟩; cases h)
  refine Eq.trans h ?_
  rw [coveredWithin_all, List.map_map,
    show (Prod.fst ∘ fun r : Int × Rat => (r.1 * 1000000000, r.2)) = (· * 1000000000) ∘ Prod.fst from rfl, ← List.map_map,
    coveredTime_scale]
  by_cases h0 : coveredTime msp (order.map Prod.fst) = 0
  · rw [if_pos h0, if_pos (by omega)]
  · rw [if_neg h0, if_neg (by omega), List.map_map,
      show ((fun r : Int × Rat => (r.1, f r.2)) ∘ fun r : Int × Rat => (r.1 * 1000000000, r.2)) =
        (fun r : Int × Rat => (r.1 * 1000000000, r.2)) ∘ (fun r => (r.1, f r.2)) from rfl, ← List.map_map, kwh_seconds]
    congr 5
    have h1 : (coveredTime msp (order.map Prod.fst) : Rat) ≠ 0 := by exact_mod_cast h0
    push_cast
    rw [mul_div_cancel_right₀ _ (by norm_num : (1000000000 : Rat) ≠ 0)]
    field_simp

/-- C116. `sections` are refused; a meter without a table is a `KeyError`, one with a single reading a `ValueError`. -/
theorem C116_errors (t : Option (RawTable (Option Rat))) (ms : List Measurement) (msp : Int) (w : TF) (useUptime : Bool)
    (ac : String) (r : Int × Rat) (period cs : Int) :
    meterAverage t ms msp w true useUptime period cs = .error .runtimeError ∧
    meterAverage none ms msp w false useUptime period cs = .error .keyError ∧
    meterAverage (some (asTable ac [r])) ms msp w false useUptime period cs = .error .valueError := by
  have h1 : TF.ctor (some r.1) (some r.1) = .error .valueError := by
    simp [TF.ctor, TF.setStart, TF.setEnd, TF.blank, TF.start, TF.stop]
  refine ⟨rfl, by cases useUptime <;> rfl, ?_⟩
  have h2 : averageTime (some (asTable ac [r])) msp w useUptime cs = .error .valueError := by
    cases useUptime <;>
      simp [averageTime, meterUptime, meterGoodSections, askedSections, tableTimeframe, asTable, h1]
  unfold meterAverage
  simp [h2]

/-! ### Counterexamples and examples -/

/-- C116, negation: a constant load of 1000 W with a gap of an hour and `max_sample_period` of one second is said to use more
than 1 kWh per hour of uptime. And with the time frame it is said to use less. -/
theorem C116_gap_counterexample :
    let t := asTable "active" [(0, 1000), (1000000000, 1000), (3601000000000, 1000), (3602000000000, 1000)]
    kwhAt 1000 3600000000000 = 1 ∧
    meterAverage (some t) exMeasures 1000000000 TF.blank false true 3600000000000 10 = .ok (some [("active", .num (3 / 2))]) ∧
    meterAverage (some t) exMeasures 1000000000 TF.blank false false 3600000000000 10 =
      .ok (some [("active", .num (3 / 3602))]) := by
  refine ⟨?_, ?_, ?_⟩ <;> decide +kernel

/-- C116, negation: in a window the energy is that between the readings inside, but the uptime goes on until the end of the
window: a constant load is said to use less than it does. -/
theorem C116_window_counterexample :
    let t := asTable "active" [(0, 1000), (10000000000, 1000), (20000000000, 1000)]
    meterAverage (some t) exMeasures 10000000000 (mk' none (some 15000000000)) false true 3600000000000 10 =
      .ok (some [("active", .num (2 / 3))]) := by
  decide +kernel

/-- The hypotheses of `C116_uptime_partial`, `C116_frame_partial` and `C116_gapless` can be met. -/
example : LimitedBy exMeasures ("power", "active") (fun v => max 0 (min v 10000000)) := exMeasures_limited
example : meterAverage (some (asTable "active" [(0, 500), (1000000000, 1500), (2000000000, 7)])) exMeasures 1000000000
    (mk' (some 0) (some 2000000000)) false true 3600000000000 10 = .ok (some [("active", .num 1)]) := by decide +kernel
example : meterAverage (some (asTable "active" [(0, 500), (1000000000, 1500), (9000000000, 7)])) exMeasures 1000000000
    TF.blank false true 3600000000000 1 = .ok (some [("active", .num 2)]) := by decide +kernel
example : meterAverage (some (asTable "active" [(0, 500), (5000000000, 1500)])) exMeasures 1000000000
    TF.blank false true 3600000000000 1 = .ok none := by decide +kernel
example : EndsAtLone 1000000000 none (some 5000000000) [0, 1000000000, 5000000000, 6000000000] := by
  refine ⟨5000000000, by simp, rfl, ⟨6000000000, by simp, by omega, by omega⟩, ?_⟩
  intro x hx _ h
  simp at hx
  omega
example : meterAverage (some (asTable "active" [(0, 1), (1000000000, 1), (5000000000, 1), (6000000000, 1)])) exMeasures 1000000000
    (mk' none (some 5000000000)) false true 3600000000000 10 = .error .valueError := by decide +kernel

end Nilmtk
