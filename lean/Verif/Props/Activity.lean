import Verif.Model.Activity
import Verif.Props.Resample
/-!
C77: the activity histogram counts, for each part of the period, the bins in which the appliance was on.
-/
namespace Nilmtk

/-! ### Thresholds -/

/-- Specification: the threshold of one appliance: its own, else its nominal power, else that of its type, else 10 W. -/
def FirstKnown (l : List (Option Rat)) (default v : Rat) : Prop :=
  (∃ pre post, l = pre ++ some v :: post ∧ ∀ x ∈ pre, x = none) ∨ ((∀ x ∈ l, x = none) ∧ v = default)

/-- C77: where the threshold of an appliance comes from. -/
theorem C77_threshold (a : ApplPower) : FirstKnown [a.own, a.nominal, a.ofType] 10 a.threshold := by
  obtain ⟨o, n, t, m⟩ := a
  cases o with
  | some x => exact Or.inl ⟨[], _, rfl, by simp⟩
  | none =>
    cases n with
    | some x => exact Or.inl ⟨[none], _, rfl, by simp⟩
    | none =>
      cases t with
      | some x => exact Or.inl ⟨[none, none], _, rfl, by simp⟩
      | none => exact Or.inr ⟨by simp, rfl⟩

/-- C77: the threshold of a meter is the least of those of its appliances, 10 W without appliances. -/
theorem C77_meter_threshold (as : List ApplPower) :
    (as = [] → onPowerThreshold as = 10) ∧
    (as ≠ [] → (∃ a ∈ as, onPowerThreshold as = a.threshold) ∧ ∀ a ∈ as, onPowerThreshold as ≤ a.threshold) := by
  refine ⟨fun h => by rw [h]; rfl, fun h => ?_⟩
  cases as with
  | nil => exact absurd rfl h
  | cons a as =>
    have := foldl_min_spec a.threshold (as.map ApplPower.threshold)
    rw [List.foldl_map] at this
    obtain ⟨h1, h2⟩ := this
    have e : onPowerThreshold (a :: as) = as.foldl (fun m b => min m b.threshold) a.threshold := rfl
    rw [e]
    refine ⟨?_, ?_⟩
    · rw [← List.map_cons (f := ApplPower.threshold), List.mem_map] at h1
      obtain ⟨b, hb, h3⟩ := h1
      exact ⟨b, hb, h3.symm⟩
    · intro b hb
      exact h2 _ (by rw [← List.map_cons (f := ApplPower.threshold)]; exact List.mem_map_of_mem hb)

/-- C77: the minimum on duration of a meter is the greatest known one of its appliances, 0 when none is known. -/
theorem C77_min_on (as : List ApplPower) :
    ((∀ a ∈ as, a.minOn = none) → minOnDuration as = 0) ∧
    ((∃ a ∈ as, a.minOn ≠ none) → (∃ a ∈ as, a.minOn = some (minOnDuration as)) ∧
      ∀ a ∈ as, ∀ x, a.minOn = some x → x ≤ minOnDuration as) := by
  have hm : ∀ x, x ∈ as.filterMap ApplPower.minOn ↔ ∃ a ∈ as, a.minOn = some x := fun x => by simp
  cases hl : as.filterMap ApplPower.minOn with
  | nil =>
    have e : minOnDuration as = 0 := by simp [minOnDuration, hl]
    rw [hl] at hm
    refine ⟨fun _ => e, fun ⟨a, ha, h⟩ => ?_⟩
    obtain ⟨x, hx⟩ := Option.ne_none_iff_exists'.1 h
    exact absurd ((hm x).2 ⟨a, ha, hx⟩) (by simp)
  | cons x l =>
    have e : minOnDuration as = l.foldl max x := by simp [minOnDuration, hl]
    rw [hl] at hm
    obtain ⟨h1, h2⟩ := foldl_max_spec x l
    rw [e]
    refine ⟨fun h => ?_, fun _ => ⟨(hm _).1 h1, fun a ha y hy => h2 y ((hm y).2 ⟨a, ha, hy⟩)⟩⟩
    obtain ⟨a, ha, h3⟩ := (hm x).1 (by simp)
    rw [h a ha] at h3; simp at h3

/-! ### Histogram -/

theorem stride_sum (f : Nat → Nat) (nb b K : Nat) (hb : b < nb) :
    ((List.range K).map (fun r : Nat => f (r * nb + b))).sum =
      ((List.range (K * nb)).map (fun j : Nat => if j % nb = b then f j else 0)).sum := by
  induction K with
  | zero => simp
  | succ K ih =>
    rw [List.range_succ, List.map_append, List.sum_append, ih, Nat.succ_mul, List.range_add, List.map_append, List.sum_append]
    congr 1
    simp only [List.map_cons, List.map_nil, List.sum_cons, List.sum_nil, Nat.add_zero, List.map_map, Function.comp_def]
    have h : ∀ i ∈ List.range nb, (if (K * nb + i) % nb = b then f (K * nb + i) else 0) = if i = b then f (K * nb + b) else 0 := by
      intro i hi
      have hi := List.mem_range.1 hi
      rw [Nat.mul_comm, Nat.mul_add_mod, Nat.mod_eq_of_lt hi]
      split
      · rename_i e; rw [e]
      · rfl
    rw [List.map_congr_left h]
    clear h ih
    have g : ∀ m : Nat, b < m → ((List.range m).map (fun i : Nat => if i = b then f (K * nb + b) else 0)).sum = f (K * nb + b) := by
      intro m
      induction m with
      | zero => omega
      | succ m ihm =>
        intro hm
        rw [List.range_succ, List.map_append, List.sum_append]
        by_cases e : b = m
        · subst e
          have z : ((List.range b).map (fun i : Nat => if i = b then f (K * nb + b) else 0)).sum = 0 := by
            apply List.sum_eq_zero
            intro x hx
            obtain ⟨i, hi, rfl⟩ := List.mem_map.1 hx
            have := List.mem_range.1 hi
            rw [if_neg (by omega)]
          rw [z]; simp
        · rw [ihm (by omega)]
          simp [show m ≠ b from fun h => e h.symm]
    exact (g nb hb).symm

theorem sum_ite_count {α : Type} (l : List α) (p : α → Bool) : (l.map (fun x => if p x then 1 else 0)).sum = l.countP p := by
  induction l with
  | nil => rfl
  | cons a l ih =>
    rw [List.map_cons, List.sum_cons, ih, List.countP_cons]
    split <;> omega

theorem lookup_true_iff (on : List (Int × Bool)) (h : (on.map Prod.fst).Nodup) (t : Int) :
    on.lookup t = some true ↔ (t, true) ∈ on := by
  constructor
  · intro h1
    induction on with
    | nil => simp at h1
    | cons p on ih =>
      obtain ⟨s, x⟩ := p
      simp only [List.map_cons, List.nodup_cons] at h
      rw [List.lookup_cons] at h1
      by_cases e : t = s
      · subst e; simp at h1; simp [h1]
      · rw [show (t == s) = false by simpa using e] at h1
        exact List.mem_cons_of_mem _ (ih h.2 h1)
  · intro h1
    induction on with
    | nil => simp at h1
    | cons p on ih =>
      obtain ⟨s, x⟩ := p
      simp only [List.map_cons, List.nodup_cons] at h
      rw [List.lookup_cons]
      rcases List.mem_cons.1 h1 with h2 | h2
      · simp only [Prod.mk.injEq] at h2
        rw [h2.1, ← h2.2]; simp
      · have : t ≠ s := by rintro rfl; exact h.1 (List.mem_map.2 ⟨_, h2, rfl⟩)
        rw [show (t == s) = false by simpa using this]
        exact ih h.2 h2

/-- What a chunk of at least five bins adds: for each part of the period the number of bins in which it is on. -/
theorem histOfChunk_spec (P B : Int) (nb : Nat) (hB : 0 < B) (hP : P = nb * B) (hday : P ∣ dayNs) (hnb : 0 < nb)
    (on : List (Int × Bool)) (hlen : 5 ≤ on.length) (hnd : (on.map Prod.fst).Nodup) (hmul : ∀ p ∈ on, B ∣ p.1)
    (a z : Int × Bool) (ha : on.head? = some a) (hz : on.getLast? = some z) (hbnd : ∀ p ∈ on, a.1 ≤ p.1 ∧ p.1 ≤ z.1) :
    histOfChunk P B nb on = (List.range nb).map (fun b : Nat =>
      on.countP (fun p => p.2 && decide ((p.1 % P) / B = b))) := by
  have hPpos : 0 < P := by rw [hP]; positivity
  unfold histOfChunk
  rw [if_neg (by omega), ha, hz]
  simp only
  have hstart : binStart P a.1 = a.1 - a.1 % P := by
    unfold binStart
    rw [Int.emod_emod_of_dvd _ hday]
  generalize hs : binStart P a.1 = start at *
  have hsP : P ∣ start := by
    rw [hstart]; exact Int.dvd_self_sub_emod
  have hr0 := Int.emod_nonneg a.1 (b := P) (by omega)
  have hr1 := Int.emod_lt_of_pos a.1 hPpos
  have haz := (hbnd a (List.mem_of_mem_head? ha)).2
  have hq0 : 0 ≤ (z.1 - start) / P := Int.ediv_nonneg (by omega) (by omega)
  obtain ⟨q, hq⟩ : ∃ q : Nat, (z.1 - start) / P = q := ⟨((z.1 - start) / P).toNat, by omega⟩
  have hzd := Int.emod_add_mul_ediv (z.1 - start) P
  have hz1 := Int.emod_lt_of_pos (z.1 - start) hPpos
  rw [hq] at hzd ⊢
  have hcount : ((start + (q : Int) * P + P - start) / B).toNat = (q + 1) * nb := by
    have : start + (q : Int) * P + P - start = (((q + 1) * nb : Nat) : Int) * B := by
      rw [hP]; push_cast; ring
    rw [this, Int.mul_ediv_cancel _ (by omega)]; rfl
  rw [hcount]
  simp only [List.length_map, List.length_range, List.map_map]
  rw [Nat.mul_div_cancel _ hnb]
  apply List.map_congr_left
  intro b hb
  have hb := List.mem_range.1 hb
  -- the values by position
  have hval : ∀ r ∈ List.range (q + 1),
      (((List.range ((q + 1) * nb)).map ((fun t => if on.lookup t = some true then 1 else 0) ∘ fun i : Nat => start + (i : Int) * B)).getD
        (r * nb + b) 0) = (fun j : Nat => if on.lookup (start + (j : Int) * B) = some true then 1 else 0) (r * nb + b) := by
    intro r hr
    have hr := List.mem_range.1 hr
    have hlt : r * nb + b < (q + 1) * nb := by
      have : (r + 1) * nb ≤ (q + 1) * nb := Nat.mul_le_mul_right _ (by omega)
      rw [Nat.succ_mul] at this; omega
    rw [List.getD_eq_getElem?_getD, List.getElem?_map, List.getElem?_range hlt]
    rfl
  rw [List.map_congr_left hval, stride_sum (fun j : Nat => if on.lookup (start + (j : Int) * B) = some true then 1 else 0) nb b (q + 1) hb]
  have e1 : (List.range ((q + 1) * nb)).map (fun j : Nat => if j % nb = b then
        (fun j : Nat => if on.lookup (start + (j : Int) * B) = some true then 1 else 0) j else 0) =
      (List.range ((q + 1) * nb)).map (fun j : Nat =>
        if (decide (j % nb = b) && decide (on.lookup (start + (j : Int) * B) = some true)) then 1 else 0) := by
    apply List.map_congr_left
    intro j _
    by_cases h1 : j % nb = b <;> by_cases h2 : on.lookup (start + (j : Int) * B) = some true <;> simp [h1, h2]
  rw [e1, sum_ite_count, List.countP_eq_length_filter, List.countP_eq_length_filter]
  -- both lists have the same timestamps
  have hinj : Function.Injective (fun j : Nat => start + (j : Int) * B) := by
    intro i j hij
    simp only at hij
    have : (i : Int) * B = j * B := by omega
    have := Int.eq_of_mul_eq_mul_right (by omega) this
    exact_mod_cast this
  rw [← List.length_map (f := fun j : Nat => start + (j : Int) * B)]
  rw [← List.length_map (as := on.filter _) (f := Prod.fst)]
  apply List.Perm.length_eq
  refine (List.perm_ext_iff_of_nodup ?_ ?_).2 ?_
  · exact List.Nodup.map hinj (List.nodup_range.filter _)
  · exact (List.filter_sublist.map Prod.fst).nodup hnd
  · intro t
    have hphase : ∀ j : Nat, (start + (j : Int) * B) % P / B = ((j % nb : Nat) : Int) := by
      intro j
      obtain ⟨c, hc⟩ := hsP
      have : start + (j : Int) * B = (((j % nb : Nat) : Int) * B) + P * (c + ((j / nb : Nat) : Int)) := by
        have hj : (j : Int) = ((j % nb : Nat) : Int) + nb * ((j / nb : Nat) : Int) := by
          exact_mod_cast (Nat.mod_add_div j nb).symm
        rw [hc]
        conv_lhs => rw [hj]
        rw [hP]; ring
      rw [this, Int.add_mul_emod_self_left]
      have hlt : ((j % nb : Nat) : Int) * B < P := by
        rw [hP]
        apply Int.mul_lt_mul_of_pos_right _ hB
        exact_mod_cast Nat.mod_lt _ hnb
      rw [Int.emod_eq_of_lt (by positivity) hlt, Int.mul_ediv_cancel _ (by omega)]
    simp only [List.mem_map, List.mem_filter, List.mem_range, Bool.and_eq_true, decide_eq_true_eq]
    constructor
    · rintro ⟨j, ⟨_, h1, h2⟩, rfl⟩
      refine ⟨(_, true), ⟨(lookup_true_iff on hnd _).1 h2, rfl, ?_⟩, rfl⟩
      rw [hphase, h1]
    · rintro ⟨⟨u, x⟩, ⟨h1, h2, h3⟩, rfl⟩
      simp only at h2 h3 ⊢
      subst h2
      have hu := hbnd _ h1
      simp only at hu
      have hBs : B ∣ start := dvd_trans ⟨(nb : Int), by rw [hP]; ring⟩ hsP
      obtain ⟨c, hc⟩ : B ∣ u - start := Int.dvd_sub (hmul _ h1) hBs
      have hc0 : 0 ≤ c := by
        by_contra hcon
        have : B * c ≤ B * (-1) := Int.mul_le_mul_of_nonneg_left (by omega) (by omega)
        omega
      obtain ⟨j, hj⟩ : ∃ j : Nat, c = j := ⟨c.toNat, by omega⟩
      subst hj
      have hut : u = start + (j : Int) * B := by rw [Int.mul_comm] at hc; omega
      have hjlt : j < (q + 1) * nb := by
        have h4 : (j : Int) * B < (((q + 1) * nb : Nat) : Int) * B := by
          have : (((q + 1) * nb : Nat) : Int) * B = P * q + P := by rw [hP]; push_cast; ring
          rw [this]; omega
        have := Int.lt_of_mul_lt_mul_right h4 (by omega)
        exact_mod_cast this
      refine ⟨j, ⟨hjlt, ?_, ?_⟩, hut.symm⟩
      · rw [hut, hphase] at h3; exact_mod_cast h3
      · rw [← hut]; exact (lookup_true_iff on hnd _).2 h1

/-- Specification: `out` is the chunk `c` resampled to `bin` seconds by the maximum, missing bins filled from the last bin with
a reading over at most ⌈max_sample_period / bin⌉ bins. -/
structure MaxResampled (d : Device) (bin : Nat) (c out : CorChunk) : Prop where
  empty : c = [] → out = []
  index : c ≠ [] → RegularIndex (bin * 1000000000) c (out.map Prod.fst)
  value : ∀ t v, (t, some v) ∈ out ↔ t ∈ out.map Prod.fst ∧ ∃ s ∈ out.map Prod.fst, s ≤ t ∧
      IsAgg .max (binValues c s (s + bin * 1000000000)) v ∧ NoReading c (s + bin * 1000000000) (t + bin * 1000000000) ∧
      t - s ≤ (⌈d.maxSamplePeriod / (bin : Rat)⌉.toNat : Int) * (bin * 1000000000)

/-- Specification: whether a row is at or above the threshold. -/
def rowOn (threshold : Rat) (p : Int × Option Rat) : Bool :=
  match p.2 with
  | some v => decide (threshold ≤ v)
  | none => false

/-- Specification: the number of bins of the resampled chunks (of those with at least five bins) that are on, in part `b` of the
period. -/
def onBins (threshold : Rat) (period bin : Nat) (outs : List CorChunk) (b : Nat) : Nat :=
  ((outs.filter (fun out => decide (5 ≤ out.length))).map (fun out => out.countP (fun p =>
    rowOn threshold p && decide ((p.1 % (period * 1000000000)) / (bin * 1000000000) = b)))).sum

theorem load_max (d : Device) (hM : 0 < d.maxSamplePeriod) (bin : Nat) (hbin : 0 < bin) (c : CorChunk)
    (hd : (c.map Prod.fst).Nodup) :
    ∃ out kw, loadColumn false d ⟨some bin, none, ⟨some .max, none, none⟩⟩ c = .ok (out, kw) ∧ MaxResampled d bin c out := by
  have hb' : (0 : Rat) < bin := by exact_mod_cast hbin
  have hL0 : 0 < ⌈d.maxSamplePeriod / (bin : Rat)⌉ := Int.ceil_pos.2 (by positivity)
  have hcol : loadColumn false d ⟨some bin, none, ⟨some .max, none, none⟩⟩ c =
      (safeResample false (bin * 1000000000) .max .ffill (some ⌈d.maxSamplePeriod / (bin : Rat)⌉.toNat) c).map
        (fun out => (out, ⟨some .max, some .ffill, some (some ⌈d.maxSamplePeriod / (bin : Rat)⌉.toNat)⟩)) := by
    simp only [loadColumn, LoadKw.on, Option.isSome_some, if_true, fillDefaults, Option.getD_some, Option.getD_none,
      if_neg (ne_of_gt hb'), if_neg (not_lt.2 (le_of_lt hL0)), LoadKw.rule, roundEven_nat]
    cases safeResample false ((bin : Int) * 1000000000) How.max FillMethod.ffill
      (some ⌈d.maxSamplePeriod / (bin : Rat)⌉.toNat) c <;> rfl
  rw [hcol]
  have hn : (0 : Int) < bin * 1000000000 := by omega
  cases c with
  | nil =>
    refine ⟨[], _, rfl, fun _ => rfl, fun h => absurd rfl h, ?_⟩
    intro t v; simp
  | cons p rest =>
    obtain ⟨out, h1, h2⟩ := C76_grid (bin * 1000000000) hn .max .ffill (some ⌈d.maxSamplePeriod / (bin : Rat)⌉.toNat)
      (by simp only [ne_eq, Option.some.injEq]; omega) (p :: rest) (by simp) hd
    refine ⟨out, _, by rw [h1]; rfl, fun h => by simp at h, fun _ => h2, ?_⟩
    intro t v
    rw [C76_filled _ hn .max _ (p :: rest) out (by simp) hd h1 t v]
    constructor
    · rintro ⟨h3, s, h4, h5, h6, h7, h8⟩; exact ⟨h3, s, h4, h5, h6, h7, h8 _ rfl⟩
    · rintro ⟨h3, s, h4, h5, h6, h7, h8⟩
      refine ⟨h3, s, h4, h5, h6, h7, ?_⟩
      intro l hl
      simp only [Option.some.injEq] at hl
      rw [← hl]; exact h8

theorem whenOn_times (thr : Rat) (c : CorChunk) : (whenOn thr c).map Prod.fst = c.map Prod.fst := by
  simp [whenOn, Function.comp_def]

theorem whenOn_eq (thr : Rat) (c : CorChunk) : whenOn thr c = c.map (fun p => (p.1, rowOn thr p)) := rfl

theorem histOfChunk_out (d : Device) (thr : Rat) (period bin : Nat) (hbin : 0 < bin) (hper : 0 < period) (hdiv : bin ∣ period)
    (hday : period ∣ 86400) (c out : CorChunk) (h : MaxResampled d bin c out) :
    histOfChunk (period * 1000000000) (bin * 1000000000) (period / bin) (whenOn thr out) =
      (List.range (period / bin)).map (fun b : Nat => onBins thr period bin [out] b) := by
  by_cases hlen : out.length < 5
  · unfold histOfChunk
    rw [if_pos (by simpa [whenOn] using hlen)]
    have : ∀ b ∈ List.range (period / bin), onBins thr period bin [out] b = 0 := by
      intro b _
      have : ¬ 5 ≤ out.length := by omega
      simp [onBins, this]
    rw [List.map_congr_left this]
    simp
  · have hc : c ≠ [] := by
      intro hc; rw [h.empty hc] at hlen; simp at hlen
    have hr := h.index hc
    have hn : (0 : Int) < bin * 1000000000 := by omega
    have hnd := regular_nodup _ hn c _ hr
    obtain ⟨start, k, hidx, _, _, _, _, _, _, midnight, hmid, _, _, hdvd⟩ := hr.regular
    have hk : out.length = k := by
      have := congrArg List.length hidx
      simpa using this
    have hBday : (bin * 1000000000 : Int) ∣ dayNs := by
      have : bin ∣ 86400 := dvd_trans hdiv hday
      have : (bin : Int) ∣ 86400 := by exact_mod_cast this
      exact mul_dvd_mul_right this _
    have hstart : (bin * 1000000000 : Int) ∣ start := by
      have := dvd_add hdvd (dvd_trans hBday hmid)
      simpa using this
    have hmem : ∀ p ∈ out, ∃ i < k, p.1 = start + (i : Int) * (bin * 1000000000) := by
      intro p hp
      have : p.1 ∈ out.map Prod.fst := List.mem_map_of_mem hp
      rw [hidx] at this
      obtain ⟨i, hi, he⟩ := List.mem_map.1 this
      exact ⟨i, List.mem_range.1 hi, he.symm⟩
    obtain ⟨a, ha⟩ : ∃ a, (whenOn thr out).head? = some a := by
      cases out with
      | nil => simp at hlen
      | cons p out => exact ⟨_, rfl⟩
    have ha1 : a.1 = start := by
      have e : ((whenOn thr out).map Prod.fst).head? = some a.1 := by rw [List.head?_map, ha]; rfl
      rw [whenOn_times, hidx, List.head?_map, List.head?_range] at e
      rw [if_neg (by omega)] at e
      simp at e; exact e.symm
    obtain ⟨z, hz⟩ : ∃ z, (whenOn thr out).getLast? = some z := by
      cases hz : (whenOn thr out).getLast? with
      | none =>
        rw [List.getLast?_eq_none_iff] at hz
        have := congrArg List.length hz
        simp [whenOn] at this; rw [this] at hlen; simp at hlen
      | some z => exact ⟨z, rfl⟩
    have hz1 : z.1 = start + ((k - 1 : Nat) : Int) * (bin * 1000000000) := by
      have e : ((whenOn thr out).map Prod.fst).getLast? = some z.1 := by rw [List.getLast?_map, hz]; rfl
      rw [whenOn_times, hidx, List.getLast?_map, List.getLast?_range] at e
      rw [if_neg (by omega)] at e
      simp only [Option.map_some, Option.some.injEq] at e; exact e.symm
    have hwm : ∀ q ∈ whenOn thr out, ∃ i < k, q.1 = start + (i : Int) * (bin * 1000000000) := by
      intro q hq
      rw [whenOn_eq] at hq
      obtain ⟨p, hp, rfl⟩ := List.mem_map.1 hq
      exact hmem p hp
    have hP : ((period : Int) * 1000000000) = ((period / bin : Nat) : Int) * (bin * 1000000000) := by
      have : ((period / bin : Nat) : Int) * (bin : Int) = period := by exact_mod_cast Nat.div_mul_cancel hdiv
      rw [← Int.mul_assoc, this]
    have hPday : ((period : Int) * 1000000000) ∣ dayNs := by
      have : (period : Int) ∣ 86400 := by exact_mod_cast hday
      exact mul_dvd_mul_right this _
    rw [histOfChunk_spec _ _ _ hn hP hPday (Nat.div_pos (Nat.le_of_dvd hper hdiv) hbin) (whenOn thr out)
      (by simp [whenOn]; omega) (by rw [whenOn_times]; exact hnd) ?_ a z ha hz ?_]
    · apply List.map_congr_left
      intro b _
      have h5 : 5 ≤ out.length := by omega
      simp [onBins, h5, whenOn_eq, List.countP_map, Function.comp_def]
    · intro q hq
      obtain ⟨i, _, e⟩ := hwm q hq
      rw [e]; exact dvd_add hstart (Dvd.intro_left _ rfl)
    · intro q hq
      obtain ⟨i, hi, e⟩ := hwm q hq
      rw [e, ha1, hz1]
      have h1 : 0 ≤ (i : Int) * (bin * 1000000000) := by positivity
      have h2 : (i : Int) * (bin * 1000000000) ≤ ((k - 1 : Nat) : Int) * (bin * 1000000000) :=
        Int.mul_le_mul_of_nonneg_right (by omega) (by omega)
      omega

theorem zipWith_add_map (f g : Nat → Nat) (l : List Nat) :
    List.zipWith (· + ·) (l.map f) (l.map g) = l.map (fun b => f b + g b) := by
  induction l with
  | nil => rfl
  | cons a l ih => simp [ih]

/-- C77: for periods that divide a day, the histogram has one entry per bin of the period: the number of resampled bins in that
part of the period that are on, over the chunks with at least five bins. -/
theorem C77_histogram_partial (d : Device) (hM : 0 < d.maxSamplePeriod) (threshold : Rat) (period bin : Nat) (hbin : 0 < bin)
    (hper : 0 < period) (hdiv : bin ∣ period) (hday : period ∣ 86400) (chunks : List CorChunk)
    (hd : ∀ c ∈ chunks, (c.map Prod.fst).Nodup) :
    ∃ outs, List.Forall₂ (MaxResampled d bin) chunks outs ∧
      activityHistogram d threshold period bin chunks =
        .ok ((List.range (period / bin)).map (fun b : Nat => onBins threshold period bin outs b)) := by
  have loop : ∀ (chunks : List CorChunk), (∀ c ∈ chunks, (c.map Prod.fst).Nodup) → ∃ outs,
      List.Forall₂ (MaxResampled d bin) chunks outs ∧ ∀ f : Nat → Nat,
      activityLoop d threshold period bin ((List.range (period / bin)).map f) chunks =
        .ok ((List.range (period / bin)).map (fun b : Nat => f b + onBins threshold period bin outs b)) := by
    intro chunks
    induction chunks with
    | nil => intro _; exact ⟨[], .nil, fun f => by simp [activityLoop, onBins]⟩
    | cons c chunks ih =>
      intro hd
      obtain ⟨outs, h1, h2⟩ := ih (fun c hc => hd c (List.mem_cons_of_mem _ hc))
      obtain ⟨out, kw, h3, h4⟩ := load_max d hM bin hbin c (hd c (List.mem_cons_self ..))
      refine ⟨out :: outs, .cons h4 h1, fun f => ?_⟩
      simp only [activityLoop, h3]
      rw [histOfChunk_out d threshold period bin hbin hper hdiv hday c out h4, zipWith_add_map, h2]
      congr 1
      apply List.map_congr_left
      intro b _
      have : onBins threshold period bin (out :: outs) b =
          onBins threshold period bin [out] b + onBins threshold period bin outs b := by
        unfold onBins
        by_cases h5 : 5 ≤ out.length
        · rw [List.filter_cons_of_pos (by simpa using h5), List.filter_cons_of_pos (by simpa using h5)]
          simp
        · rw [List.filter_cons_of_neg (by simpa using h5), List.filter_cons_of_neg (by simpa using h5)]
          simp
      rw [this]; omega
  obtain ⟨outs, h1, h2⟩ := loop chunks hd
  refine ⟨outs, h1, ?_⟩
  unfold activityHistogram
  rw [if_neg (by omega), if_neg (by simpa using Nat.mod_eq_zero_of_dvd hdiv)]
  have := h2 (fun _ => 0)
  simpa using this

/-- C77: a bin with readings is on exactly when one of its readings is at or above the threshold; a bin without readings counts
as on exactly when the last bin with readings is on and close enough. -/
theorem C77_on (d : Device) (threshold : Rat) (bin : Nat) (c out : CorChunk) (h : MaxResampled d bin c out)
    (p : Int × Option Rat) (hp : p ∈ out) (hnd : (out.map Prod.fst).Nodup) :
    rowOn threshold p = true ↔ ∃ s ∈ out.map Prod.fst, s ≤ p.1 ∧
      (∃ r ∈ c, s ≤ r.1 ∧ r.1 < s + bin * 1000000000 ∧ ∃ v, r.2 = some v ∧ threshold ≤ v) ∧
      NoReading c (s + bin * 1000000000) (p.1 + bin * 1000000000) ∧
      p.1 - s ≤ (⌈d.maxSamplePeriod / (bin : Rat)⌉.toNat : Int) * (bin * 1000000000) := by
  obtain ⟨t, x⟩ := p
  simp only
  have hmemb : ∀ s v, v ∈ binValues c s (s + bin * 1000000000) ↔ ∃ r ∈ c, s ≤ r.1 ∧ r.1 < s + bin * 1000000000 ∧ r.2 = some v := by
    intro s v
    simp only [binValues, List.mem_filterMap, List.mem_filter, Bool.and_eq_true, decide_eq_true_eq]
    constructor
    · rintro ⟨r, ⟨h1, h2, h3⟩, h4⟩; exact ⟨r, h1, h2, h3, h4⟩
    · rintro ⟨r, h1, h2, h3, h4⟩; exact ⟨r, ⟨h1, h2, h3⟩, h4⟩
  constructor
  · intro hon
    cases x with
    | none => simp [rowOn] at hon
    | some v =>
      simp only [rowOn, decide_eq_true_eq] at hon
      obtain ⟨_, s, h1, h2, h3, h4, h5⟩ := (h.value t v).1 hp
      refine ⟨s, h1, h2, ?_, h4, h5⟩
      obtain ⟨r, hr, e1, e2, e3⟩ := (hmemb s v).1 h3.2.1
      exact ⟨r, hr, e1, e2, v, e3, hon⟩
  · rintro ⟨s, h1, h2, ⟨r, hr, e1, e2, v, e3, e4⟩, h4, h5⟩
    have hv := (hmemb s v).2 ⟨r, hr, e1, e2, e3⟩
    obtain ⟨w, hw⟩ := agg_exists .max _ (List.ne_nil_of_mem hv)
    have hm : (t, some w) ∈ out := (h.value t w).2 ⟨List.mem_map.2 ⟨_, hp, rfl⟩, s, h1, h2, hw, h4, h5⟩
    have := eq_of_nodup_fst out hnd t _ _ hp hm
    rw [this]
    simp only [rowOn, decide_eq_true_eq]
    exact le_trans e4 (hw.2.2 v hv)

/-- C77: a bin duration that does not divide the period is refused. -/
theorem C77_refused (d : Device) (threshold : Rat) (period bin : Nat) (hbin : 0 < bin) (chunks : List CorChunk)
    (h : ¬ bin ∣ period) : activityHistogram d threshold period bin chunks = .error .valueError := by
  unfold activityHistogram
  rw [if_neg (by omega), if_pos]
  intro h0; exact h (Nat.dvd_of_mod_eq_zero h0)

/-- C77: four bins of six hours, all on, are ignored. -/
theorem C77_short_counterexample :
    activityHistogram ⟨1, 10⟩ 10 86400 21600
      [(List.range 24).map (fun i : Nat => (secs (3600 * i), some 100))] = .ok [0, 0, 0, 0] := by
  decide +kernel

/-- C77: an hour without readings counts as on when the hour before it was on, although `max_sample_period` is 10 seconds. -/
theorem C77_gap_counterexample :
    activityHistogram ⟨1, 10⟩ 10 21600 3600
      [[(secs 0, some 0), (secs 3600, some 100), (secs (3 * 3600), some 0), (secs (4 * 3600), some 0)]] =
      .ok [0, 1, 1, 0, 0, 0] := by
  decide +kernel

/-- C77: an hour that is cut by a chunk boundary is counted twice. -/
theorem C77_twice_counterexample :
    let a : CorChunk := (List.range 5).map (fun i : Nat => (secs (3600 * i), some 100))
    let b : CorChunk := (List.range 5).map (fun i : Nat => (secs (3600 * (i + 4) + 1800), some 100))
    activityHistogram ⟨1, 10⟩ 10 43200 3600 [a ++ b] = .ok [1, 1, 1, 1, 1, 1, 1, 1, 1, 0, 0, 0] ∧
    activityHistogram ⟨1, 10⟩ 10 43200 3600 [a, b] = .ok [1, 1, 1, 1, 2, 1, 1, 1, 1, 0, 0, 0] :=
  ⟨by decide +kernel, by decide +kernel⟩

/-- The readings of one day, every six hours, all of value `v`. -/
def exDay (i : Nat) (v : Rat) : CorChunk := (List.range 4).map (fun j : Nat => (secs (86400 * i + 21600 * j), some v))

/-- C77: for a period longer than a day each chunk counts from its own first day: with a period of two days, the same day of
activity (day 2) falls in the first or the second half, depending on the day on which the chunk starts. -/
theorem C77_long_period_counterexample :
    activityHistogram ⟨1, 10⟩ 10 172800 43200 [exDay 0 0 ++ exDay 1 0 ++ exDay 2 100] = .ok [1, 1, 0, 0] ∧
    activityHistogram ⟨1, 10⟩ 10 172800 43200 [exDay 1 0 ++ exDay 2 100 ++ exDay 3 0] = .ok [0, 0, 1, 1] :=
  ⟨by decide +kernel, by decide +kernel⟩

/-- The hypotheses of `C77_histogram_partial` hold for a day of readings every six hours in bins of three hours. -/
example : 0 < 10800 ∧ 10800 ∣ 86400 ∧ 86400 ∣ 86400 ∧
    ((List.range 5).map (fun i : Nat => ((secs (21600 * i), some 50) : Int × Option Rat)) |>.map Prod.fst).Nodup ∧
    activityHistogram ⟨1, 10⟩ 10 86400 10800 [(List.range 5).map (fun i : Nat => (secs (21600 * i), some 50))] =
      .ok [2, 1, 1, 1, 1, 1, 1, 1] :=
  ⟨by decide, by decide, by decide, by decide, by decide +kernel⟩

/-- Appliances with known and unknown thresholds. -/
example : onPowerThreshold [⟨some 20, none, none, none⟩, ⟨none, some 15, some 5, some 3⟩, ⟨none, none, none, some 7⟩] = 10 ∧
    minOnDuration [⟨some 20, none, none, none⟩, ⟨none, some 15, some 5, some 3⟩, ⟨none, none, none, some 7⟩] = 7 := by
  decide +kernel

end Nilmtk
