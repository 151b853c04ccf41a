import Verif.Model.StoredLoad
import Verif.Props.Describe
import Verif.Props.GroupLoad
import Verif.Props.MeterPower
/-!
C120: from the files of REDD to resampled data.
-/
namespace Nilmtk
open TF

/-! ### Specification -/

/-- `out` is `rows` resampled: a regular index of bins of `n` nanoseconds from the bin of the first row to that of the last; in each bin
the mean of its readings, or, if it has none, the mean of the last bin that has, at most `limit` bins earlier. -/
structure Resampled (n limit : Int) (rows out : List (Int × Option Rat)) : Prop where
  index : RegularIndex n rows (out.map Prod.fst)
  value : ∀ t v, (t, some v) ∈ out ↔ t ∈ out.map Prod.fst ∧ ∃ s ∈ out.map Prod.fst, s ≤ t ∧
    IsAgg .mean (binValues rows s (s + n)) v ∧ NoReading rows (s + n) (t + n) ∧ t - s ≤ limit * n

/-- Readings as rows. -/
def asRows (l : List (Int × Rat)) : List (Int × Option Rat) := l.map (fun r => (r.1, some r.2))

/-- The table of the meter has the readings `l` of power of the AC type `ac`, and a load of power of the AC type `req` asks for them. -/
structure HoldsPower (m : HomeMeter) (req : Req) (ac : String) (l : List (Int × Rat)) : Prop where
  table : m.stored.table = some (asTable ac l)
  order : l.Pairwise (fun x y => x.1 < y.1)
  asked : ∃ asked, convertToCols m.stored.measurements (.one "power") req none = .ok asked ∧ ("power", ac) ∈ asked
  period : 0 < m.stored.maxSamplePeriod

/-- The number of bins that a reading is carried forward: `max_sample_period` over the sample period, rounded up. -/
def HomeMeter.carried (m : HomeMeter) (sp : Nat) : Int := ⌈((m.stored.maxSamplePeriod : Rat) / 1000000000) / sp⌉

/-- The readings of the window in the piece from `s` until `e`. -/
def inPiece (a b : Option Int) (s e : Int) (l : List (Int × Rat)) : List (Int × Rat) :=
  l.filter (fun r => fromUntil a b r.1 && (decide (s ≤ r.1) && decide (r.1 < e)))

/-- `g` starts the bin of `n` nanoseconds, counted from midnight, which the time `s` is in. -/
def FirstBin (n s g : Int) : Prop :=
  g ≤ s ∧ s < g + n ∧ ∃ midnight, wholeDay ∣ midnight ∧ midnight ≤ s ∧ s < midnight + wholeDay ∧ n ∣ g - midnight

/-- The readings at a time, at most one. -/
def readingsAt (out : List (Int × Option Rat)) (t : Int) : List Rat := out.filterMap (fun r => if r.1 = t then r.2 else none)

/-- A chunk of a group for the piece from `s` until `e`: bins from that of `s` up to `e`, and in each column at each of its times the sum
of the resampled readings of the meters in the piece; a meter with fewer than two readings in the piece has none. -/
def PieceOf {ι : Type} (M : ι → HomeMeter) (A : ι → String) (L : ι → List (Int × Rat)) (ms : List ι) (sp : Nat) (a b : Option Int)
    (cs : Int) (s e : Int) (ch : LChunk) : Prop :=
  (∃ g, FirstBin (sp * 1000000000) s g ∧ IsGrid (sp * 1000000000) g e ch.index) ∧
  ∃ outs : ι → List (Int × Option Rat),
    (∀ i ∈ ms, (2 ≤ (inPiece a b s e (L i)).length →
        Resampled (sp * 1000000000) ((M i).carried sp) (asRows ((inPiece a b s e (L i)).take (cs.toNat + 1))) (outs i)) ∧
      ((inPiece a b s e (L i)).length < 2 → outs i = [])) ∧
    ch.cells = ch.columns.map (fun col => ch.index.map (fun t =>
      sumOf (ms.flatMap (fun i => if ("power", A i) = col then readingsAt (outs i) t else []))))

/-- From when on the group looks at a meter: its first reading, or the start of the window if that is later. -/
def spanStart (a : Option Int) (l : List (Int × Rat)) : Int :=
  (a.map (fun x => max x ((l.head?.map Prod.fst).getD 0))).getD ((l.head?.map Prod.fst).getD 0)

/-- Until when the group looks at a meter: its last reading, or the end of the window if that is earlier. -/
def spanEnd (b : Option Int) (l : List (Int × Rat)) : Int :=
  (b.map (fun x => min x ((l.getLast?.map Prod.fst).getD 0))).getD ((l.getLast?.map Prod.fst).getD 0)

/-! ### The first chunk of the store -/

theorem hdf_one_section {α : Type} (table : Option (List (Row α))) (window sec : TF) (nLook cs : Int) :
    (hdfLoad table window (some [sec]) nLook cs).1 = (loadSection table window nLook cs sec).1 := by
  unfold hdfLoad
  simp only [Option.getD_some, loadSections]
  cases hl : (loadSection table window nLook cs sec).1 with
  | mk out err => cases err <;> simp [Gen.append, Gen.done]

theorem select_take {α : Type} (table : List (Row α)) (s stop cs : Nat) (h : s < stop) :
    selectRows table s (min (s + cs) stop + 1) = (selectRows table s (stop + 1)).take (cs + 1) := by
  unfold selectRows
  rw [List.take_take]
  congr 1
  omega

theorem tiles_head {s e : Int} {f : TF} {fs : List TF} (h : Tiles s e (f :: fs)) : ∃ x y, HalfOpen f x y ∧ x < y := by
  cases h with
  | cons s m e f fs hho hlt _ => exact ⟨_, _, hho, hlt⟩

theorem first_chunk {α : Type} (table : List (Row α)) (hinc : Increasing table) (window sec : TF) (cs : Int) (hcs : 0 < cs)
    (p : Int → Bool) (hp : ∀ t, p t = true ↔ Mem t (window.intersection sec))
    (h2 : 2 ≤ (table.filter (fun r => p r.1)).length) :
    ∃ (tf : TF) (s e : Int) (rest : List (Chunk α)), (loadSection (some table) window 0 cs sec).1.out =
      ⟨(table.filter (fun r => p r.1)).take (cs.toNat + 1), tf, none⟩ :: rest ∧ HalfOpen tf s e ∧ s < e := by
  rcases loadSection_cases table hinc window sec 0 cs hcs p hp with h | h | ⟨a, b, h1, h3, h4, h5, h6, h7, h8⟩
  · rw [h.1] at h2; simp at h2
  · omega
  · have hspec := chunkLoop_spec table (window.intersection sec) 0 cs.toNat b a (by omega) hinc
      (by rcases h8 with h | h
          · exact Or.inl h.2
          · exact Or.inr ⟨h.1, h.2.2⟩) h6 h7 0 a (by simp) h4 h5
    rw [h1]
    simp only [loadRange, hcs, dif_pos]
    have hne := hspec.nonempty
    have htiles := hspec.tiles
    rw [chunkLoop_unfold _ _ _ _ _ _ (by omega) _ _ h4 (by omega)] at hne htiles ⊢
    split at hne
    · simp [Gen.raise] at hne
    · rename_i tf htf
      rw [htf] at htiles
      simp only [Gen.cons] at htiles ⊢
      rw [select_take table a b cs.toNat h4, h3] at htiles ⊢
      obtain ⟨x, y, h9, h10⟩ := tiles_head htiles
      exact ⟨tf, x, y, _, rfl, h9, h10⟩

theorem load_one_row {α : Type} (table : List (Row α)) (hinc : Increasing table) (window sec : TF) (cs : Int) (hcs : 0 < cs)
    (p : Int → Bool) (hp : ∀ t, p t = true ↔ Mem t (window.intersection sec))
    (h2 : (table.filter (fun r => p r.1)).length < 2) :
    (loadSection (some table) window 0 cs sec).1.err = none ∧
    ((loadSection (some table) window 0 cs sec).1.out = [] ∨
      ∃ c, (loadSection (some table) window 0 cs sec).1.out = [c] ∧ c.rows = []) ∧
    (table.filter (fun r => p r.1) = [] → ∃ tf, (loadSection (some table) window 0 cs sec).1.out = [⟨[], tf, none⟩]) := by
  rcases loadSection_cases table hinc window sec 0 cs hcs p hp with ⟨h, tf, h1⟩ | ⟨h1, h3, -, h4, h5⟩ | ⟨a, b, h1, h3, h4, h5, h6, h7, h8⟩
  · rw [h1]
    exact ⟨rfl, Or.inr ⟨_, rfl, rfl⟩, fun _ => ⟨tf, rfl⟩⟩
  · refine ⟨h3, ?_, fun h => by rw [h] at h1; simp at h1⟩
    generalize (loadSection (some table) window 0 cs sec).1.out = out at h4 h5
    match out, h4, h5 with
    | [], _, _ => exact Or.inl rfl
    | [c], _, h5 => exact Or.inr ⟨c, rfl, by simpa [joinOverlapping] using h5⟩
    | _ :: _ :: _, h4, _ => simp at h4
  · have h9 := (loadSection_spec table hinc window sec 0 cs hcs p hp)
    exfalso
    have : (selectRows table a (b + 1)).length ≥ 2 := by
      unfold selectRows
      rw [List.length_take, List.length_drop]
      omega
    rw [h3] at this
    omega

theorem load_single {α : Type} (table : List (Row α)) (hinc : Increasing table) (window sec : TF) (cs : Int) (hcs : 0 < cs)
    (p : Int → Bool) (hp : ∀ t, p t = true ↔ Mem t (window.intersection sec))
    (h1 : (table.filter (fun r => p r.1)).length = 1)
    (hw : (window.intersection sec).start ≠ none ∨ (window.intersection sec).stop ≠ none) :
    (loadSection (some table) window 0 cs sec).1 = Gen.done := by
  generalize hwi : window.intersection sec = w at *
  have he : w.empty = false := by
    cases hx : w.empty with
    | false => rfl
    | true =>
      exfalso
      have : table.filter (fun r => p r.1) = [] := by
        rw [List.filter_eq_nil_iff]
        intro r _ hm
        have := ((hp r.1).1 hm).1
        rw [hx] at this
        cases this
      rw [this] at h1
      simp at h1
  unfold loadSection
  rw [hwi]
  simp only [he, Bool.false_eq_true, if_false]
  cases hq : w.queryTerms with
  | error e => simp [queryTerms, he] at hq; split at hq <;> cases hq
  | ok o =>
    cases o with
    | none =>
      exfalso
      unfold queryTerms at hq
      simp only [he, Bool.false_eq_true, if_false] at hq
      split at hq
      · rename_i h3 h4
        rcases hw with hw | hw
        · exact hw h3
        · exact hw h4
      · cases hq
    | some terms =>
      simp only
      have hfil : table.filter (fun r => p r.1) = table.filter (fun r => matchesTerms terms r.1) := by
        apply List.filter_congr
        intro r _
        rw [Bool.eq_iff_iff, hp, matchesTerms_iff hq]
      rw [hfil] at h1
      cases hh : (coordinates terms table).head? with
      | none =>
        rw [List.head?_eq_none_iff] at hh
        rw [coordinates_nil _ _ hh] at h1
        simp at h1
      | some a =>
        cases hl : (coordinates terms table).getLast? with
        | none =>
          rw [List.getLast?_eq_none_iff] at hl
          rw [hl] at hh; cases hh
        | some b =>
          obtain ⟨h2, h3, -, -, h5⟩ := select_coordinates terms table hinc a b hh hl
          rw [← h5, select_length] at h1
          simp only [loadRange, hcs, dif_pos]
          exact chunkLoop_done _ _ _ _ _ _ _ _ _ (by omega)

/-! ### Resampling -/

theorem resample_rows (m : HomeMeter) (hM : 0 < m.stored.maxSamplePeriod) (sp : Nat) (hsp : 0 < sp)
    (rows : List (Int × Option Rat)) (hne : rows ≠ []) (hd : (rows.map Prod.fst).Nodup) :
    ∃ out kw, loadColumn false m.device (samplePeriodKw sp) rows = .ok (out, kw) ∧
      Resampled (sp * 1000000000) (m.carried sp) rows out := by
  have hsp' : (0 : Rat) < sp := by exact_mod_cast hsp
  have hM' : 0 < m.device.maxSamplePeriod := by
    show (0 : Rat) < (m.stored.maxSamplePeriod : Rat) / 1000000000
    have : (0 : Rat) < m.stored.maxSamplePeriod := by exact_mod_cast hM
    positivity
  have hdef := C76_default m.device sp hsp' hM' rows
  rw [roundEven_nat] at hdef
  have hn : (0 : Int) < sp * 1000000000 := by omega
  have hL0 : 0 < ⌈m.device.maxSamplePeriod / (sp : Rat)⌉ := Int.ceil_pos.2 (by positivity)
  have hc : m.carried sp = (⌈m.device.maxSamplePeriod / (sp : Rat)⌉.toNat : Int) := by
    rw [Int.toNat_of_nonneg (by omega)]
    rfl
  obtain ⟨out, h1, h2⟩ := C76_grid (sp * 1000000000) hn .mean .ffill (some ⌈m.device.maxSamplePeriod / (sp : Rat)⌉.toNat)
    (by simp only [ne_eq, Option.some.injEq]; omega) rows hne hd
  rw [h1] at hdef
  refine ⟨out, _, hdef, h2, ?_⟩
  intro t v
  rw [C76_filled _ hn .mean _ rows out hne hd h1 t v, hc]
  simp

theorem fillDefaults_given (m : HomeMeter) (hM : 0 < m.stored.maxSamplePeriod) (sp : Nat) (hsp : 0 < sp) :
    ∃ kw, fillDefaults m.device (samplePeriodKw sp) = .ok kw := by
  have hsp' : (0 : Rat) < sp := by exact_mod_cast hsp
  have hM' : 0 < m.device.maxSamplePeriod := by
    show (0 : Rat) < (m.stored.maxSamplePeriod : Rat) / 1000000000
    have : (0 : Rat) < m.stored.maxSamplePeriod := by exact_mod_cast hM
    positivity
  have h : ¬ ⌈m.device.maxSamplePeriod / (sp : Rat)⌉ < 0 := by
    have : 0 < ⌈m.device.maxSamplePeriod / (sp : Rat)⌉ := Int.ceil_pos.2 (by positivity)
    omega
  have h0 : (sp : Rat) ≠ 0 := ne_of_gt hsp'
  unfold fillDefaults
  show ∃ kw, (if (sp : Rat) = 0 then Except.error Err.zeroDivisionError
    else if ⌈m.device.maxSamplePeriod / (sp : Rat)⌉ < 0 then .error .valueError else _) = Except.ok kw
  rw [if_neg h0, if_neg h]
  exact ⟨_, rfl⟩

theorem loaded_column {asked : List Col} (hnd : asked.Nodup) {c : Col} (hc : c ∈ asked) : loadedColumns [c] asked = [c] := by
  unfold loadedColumns
  have : asked.filter (fun x => decide (x ∈ [c])) = asked.filter (fun x => x == c) := by
    apply List.filter_congr
    intro x _
    simp only [List.mem_singleton]
    by_cases hx : x = c <;> simp [hx]
  rw [this, List.filter_beq, List.count_eq_one_of_mem hnd hc]
  rfl

theorem asRows_filter (l : List (Int × Rat)) (p : Int → Bool) :
    (asRows l).filter (fun r => p r.1) = asRows (l.filter (fun r => p r.1)) := by
  unfold asRows
  rw [List.filter_map]
  rfl

theorem asRows_increasing {l : List (Int × Rat)} (h : l.Pairwise (fun x y => x.1 < y.1)) : Increasing (asRows l) := by
  unfold Increasing asRows
  rw [List.pairwise_map]
  exact h

theorem asRows_nodup {l : List (Int × Rat)} (h : l.Pairwise (fun x y => x.1 < y.1)) : ((asRows l).map Prod.fst).Nodup := by
  unfold asRows
  rw [List.map_map, List.nodup_iff_pairwise_ne, List.pairwise_map]
  exact h.imp (fun h => ne_of_lt h)

theorem asRows_take (l : List (Int × Rat)) (n : Nat) : (asRows l).take n = asRows (l.take n) := by
  unfold asRows
  rw [List.map_take]

/-- The generator of a meter with readings, in terms of that of the store. -/
theorem holds_load {m : HomeMeter} {req : Req} {ac : String} {l : List (Int × Rat)} (h : HoldsPower m req ac l) (sp : Nat)
    (hsp : 0 < sp) (sections : Option (List TF)) (window : TF) (cs : Int) :
    m.load (.one "power") req sp sections window cs =
      yieldEach (resampledChunk m.device sp [("power", ac)]) (hdfLoad (some (asRows l)) window sections 0 cs).1.err
        (hdfLoad (some (asRows l)) window sections 0 cs).1.out := by
  obtain ⟨asked, ha, hin⟩ := h.asked
  obtain ⟨kw, hkw⟩ := fillDefaults_given m h.period sp hsp
  unfold HomeMeter.load
  rw [hkw, ha, h.table]
  simp only [Option.map_some, Option.getD_some, asTable, loaded_column (convertToCols_power_nodup ha) hin]
  rfl

/-- The first chunk of a meter with two readings in the section. -/
theorem holds_first {m : HomeMeter} {req : Req} {ac : String} {l : List (Int × Rat)} (h : HoldsPower m req ac l) (sp : Nat)
    (hsp : 0 < sp) (window sec : TF) (cs : Int) (hcs : 0 < cs) (p : Int → Bool)
    (hp : ∀ t, p t = true ↔ Mem t (window.intersection sec)) (h2 : 2 ≤ (l.filter (fun r => p r.1)).length) :
    ∃ (out : List (Int × Option Rat)) (tf : TF) (s e : Int),
      firstOf (m.load (.one "power") req sp (some [sec]) window cs) =
        .ok (some ⟨[("power", ac)], out.map (fun r => (r.1, [r.2])), some tf⟩) ∧
      Resampled (sp * 1000000000) (m.carried sp) (asRows ((l.filter (fun r => p r.1)).take (cs.toNat + 1))) out ∧
      HalfOpen tf s e ∧ s < e := by
  rw [holds_load h sp hsp, hdf_one_section]
  obtain ⟨tf, s, e, rest, h3, h4, h5⟩ := first_chunk (asRows l) (asRows_increasing h.order) window sec cs hcs p hp
    (by rw [asRows_filter, asRows, List.length_map]; exact h2)
  rw [asRows_filter, asRows_take] at h3
  have hsub : ((l.filter (fun r => p r.1)).take (cs.toNat + 1)).Pairwise (fun x y => x.1 < y.1) :=
    h.order.sublist ((List.take_sublist _ _).trans List.filter_sublist)
  have hne : asRows ((l.filter (fun r => p r.1)).take (cs.toNat + 1)) ≠ [] := by
    apply List.ne_nil_of_length_pos
    rw [asRows, List.length_map, List.length_take]
    omega
  obtain ⟨out, kw, h6, h7⟩ := resample_rows m h.period sp hsp _ hne (asRows_nodup hsub)
  refine ⟨out, tf, s, e, ?_, h7, h4, h5⟩
  rw [h3]
  simp only [yieldEach, resampledChunk]
  rw [if_neg (by simp only [hne, List.cons_ne_nil, or_self, not_false_iff]), h6]
  rfl

/-- A meter with fewer than two readings in the section has no chunk, or an empty one. -/
theorem holds_few {m : HomeMeter} {req : Req} {ac : String} {l : List (Int × Rat)} (h : HoldsPower m req ac l) (sp : Nat)
    (hsp : 0 < sp) (window sec : TF) (cs : Int) (hcs : 0 < cs) (p : Int → Bool)
    (hp : ∀ t, p t = true ↔ Mem t (window.intersection sec)) (h2 : (l.filter (fun r => p r.1)).length < 2) :
    ∃ o, firstOf (m.load (.one "power") req sp (some [sec]) window cs) = .ok o ∧ (o = none ∨ ∃ tf, o = some ⟨[], [], tf⟩) ∧
      (l.filter (fun r => p r.1) = [] → ∃ tf, o = some ⟨[], [], tf⟩) := by
  rw [holds_load h sp hsp, hdf_one_section]
  obtain ⟨h3, h4, h5⟩ := load_one_row (asRows l) (asRows_increasing h.order) window sec cs hcs p hp
    (by rw [asRows_filter, asRows, List.length_map]; exact h2)
  rw [h3]
  rcases h4 with h4 | ⟨c, h4, hc⟩
  · refine ⟨none, by rw [h4]; rfl, Or.inl rfl, ?_⟩
    intro hnil
    obtain ⟨tf, ht⟩ := h5 (by rw [asRows_filter, hnil]; rfl)
    rw [ht] at h4
    cases h4
  · have hr : resampledChunk m.device sp [("power", ac)] c = .ok ⟨[], [], some c.timeframe⟩ := by
      unfold resampledChunk
      rw [if_pos (Or.inl hc), hc]
      rfl
    refine ⟨some ⟨[], [], some c.timeframe⟩, ?_, Or.inr ⟨_, rfl⟩, fun _ => ⟨_, rfl⟩⟩
    rw [h4]
    simp only [yieldEach, hr]
    rfl

/-! ### A meter -/

/-- C120. The first chunk of `load(physical_quantity='power', ac_type=..., sample_period=sp)` of a meter, as `next` delivers it, with two
readings in the window: the column of the meter and the first `chunksize + 1` of its readings in the window, resampled. With no more
readings than that it has all of them. The readings are not limited as the device says. -/
theorem C120_meter_partial {m : HomeMeter} {req : Req} {ac : String} {l : List (Int × Rat)} (h : HoldsPower m req ac l) (sp : Nat)
    (hsp : 0 < sp) (a b : Option Int) (hab : ∀ x y, a = some x → b = some y → x < y) (cs : Int) (hcs : 0 < cs)
    (h2 : 2 ≤ (l.filter (fun r => fromUntil a b r.1)).length) :
    ∃ (out : List (Int × Option Rat)) (tf : TF), firstOf (m.load (.one "power") req sp none (mk' a b) cs) =
        .ok (some ⟨[("power", ac)], out.map (fun r => (r.1, [r.2])), some tf⟩) ∧
      Resampled (sp * 1000000000) (m.carried sp) (asRows ((l.filter (fun r => fromUntil a b r.1)).take (cs.toNat + 1))) out ∧
      (((l.filter (fun r => fromUntil a b r.1)).length : Int) ≤ cs + 1 →
        Resampled (sp * 1000000000) (m.carried sp) (asRows (l.filter (fun r => fromUntil a b r.1))) out) := by
  obtain ⟨out, tf, s, e, h3, h4, -⟩ := holds_first h sp hsp (mk' a b) TF.blank cs hcs (fromUntil a b)
    (by intro t; rw [window_blank a b hab, mem_built]) h2
  refine ⟨out, tf, h3, h4, ?_⟩
  intro hle
  rwa [List.take_of_length_le (by omega)] at h4

/-- C120. A meter with no reading in the window delivers an empty frame, without the column; with one reading it delivers no chunk at all
or an empty one, and `next` raises `StopIteration` if the window is bounded. -/
theorem C120_few {m : HomeMeter} {req : Req} {ac : String} {l : List (Int × Rat)} (h : HoldsPower m req ac l) (sp : Nat)
    (hsp : 0 < sp) (a b : Option Int) (hab : ∀ x y, a = some x → b = some y → x < y) (cs : Int) (hcs : 0 < cs) :
    (l.filter (fun r => fromUntil a b r.1) = [] → ∃ tf, firstOf (m.load (.one "power") req sp none (mk' a b) cs) = .ok (some ⟨[], [], tf⟩)) ∧
    ((l.filter (fun r => fromUntil a b r.1)).length = 1 → a ≠ none ∨ b ≠ none →
      firstOf (m.load (.one "power") req sp none (mk' a b) cs) = .ok none) := by
  constructor
  · intro hnil
    obtain ⟨o, h3, -, h4⟩ := holds_few h sp hsp (mk' a b) TF.blank cs hcs (fromUntil a b)
      (by intro t; rw [window_blank a b hab, mem_built]) (by rw [hnil]; simp)
    obtain ⟨tf, rfl⟩ := h4 hnil
    exact ⟨tf, h3⟩
  · intro h1 hw
    rw [holds_load h sp hsp]
    show firstOf (yieldEach _ (hdfLoad (some (asRows l)) (mk' a b) (some [TF.blank]) 0 cs).1.err
      (hdfLoad (some (asRows l)) (mk' a b) (some [TF.blank]) 0 cs).1.out) = _
    rw [hdf_one_section]
    have hl := load_single (asRows l) (asRows_increasing h.order) (mk' a b) TF.blank cs hcs (fromUntil a b)
      (by intro t; rw [window_blank a b hab, mem_built]) (by rw [asRows_filter, asRows, List.length_map]; exact h1)
      (by rw [window_blank a b hab]; exact hw)
    rw [hl]
    rfl

/-! ### Groups -/

theorem binStart_first (n s : Int) (hn : 0 < n) : FirstBin n s (binStart n s) := by
  have hday : (0 : Int) < dayNs := by decide
  have h1 := Int.emod_nonneg (s % dayNs) (ne_of_gt hn)
  have h2 := Int.emod_lt_of_pos (s % dayNs) hn
  have h3 := Int.emod_nonneg s (ne_of_gt hday)
  have h4 := Int.emod_lt_of_pos s hday
  have h5 := Int.emod_add_mul_ediv s dayNs
  have h6 := Int.emod_add_mul_ediv (s % dayNs) n
  have hw : wholeDay = dayNs := by decide
  unfold FirstBin binStart
  rw [hw]
  refine ⟨by omega, by omega, s - s % dayNs, ?_, by omega, by omega, ?_⟩
  · exact ⟨s / dayNs, by omega⟩
  · exact ⟨s % dayNs / n, by omega⟩

theorem mem_piece (a b : Option Int) (p : TF) (s e : Int) (hp : HalfOpen p s e) (t : Int) :
    (fromUntil a b t && (decide (s ≤ t) && decide (t < e))) = true ↔ Mem t ((mk' a b).intersection p) := by
  rw [C02_intersection_halfopen _ _ _ rfl hp.2.1]
  have h1 : Mem t (mk' a b) ↔ fromUntil a b t = true := mem_built a b t
  have h2 : Mem t p ↔ s ≤ t ∧ t < e := by
    obtain ⟨x1, x2, x3, x4⟩ := hp
    simp [Mem, x1, x2, x3, x4]
  rw [h1, h2]
  simp

theorem available_column (c : Col) (out : List (Int × Option Rat)) (tf : Option TF) (col : Col) (t : Int) :
    available ⟨[c], out.map (fun r => (r.1, [r.2])), tf⟩ col t = if c = col then readingsAt out t else [] := by
  unfold available readingsAt
  simp only [List.filter_map, List.flatMap_map, Function.comp_def]
  induction out with
  | nil => simp
  | cons r out ih =>
    obtain ⟨u, x⟩ := r
    by_cases hu : u = t
    · rw [List.filter_cons_of_pos (by simpa using hu), List.flatMap_cons, ih]
      by_cases hc : c = col
      · cases x <;> simp [hc, hu]
      · simp [hc]
    · rw [List.filter_cons_of_neg (by simpa using hu), ih]
      by_cases hc : c = col <;> simp [hc, hu]

theorem loadPiece_eq (ms : List LMeter) (q : Rat) (n : Int) (hf : freqNs q = n) (hn : 0 < n) (columns : List Col) (p : TF) (s e : Int)
    (hp : HalfOpen p s e) (firsts : List (Option GChunk)) (hm : mapE (fun m : LMeter => m.first q p) ms = .ok firsts)
    (cells : List (List (Option Rat))) (tf : Option TF)
    (h : combineChunks (dateRangeLeft n (binStart n s) e) columns firsts = .ok (cells, tf)) :
    loadPiece ms q columns p = .ok ⟨dateRangeLeft n (binStart n s) e, columns, cells, tf⟩ := by
  unfold loadPiece normaliseTimestamp
  rw [hf, hp.2.2.1, hp.2.2.2]
  simp only [if_neg (not_le.2 hn), hm, h]

theorem stored_piece {ι : Type} (M : ι → HomeMeter) (A : ι → String) (L : ι → List (Int × Rat)) (req : Req) (ms : List ι)
    (h : ∀ i ∈ ms, HoldsPower (M i) req (A i) (L i)) (sp : Nat) (hsp : 0 < sp) (a b : Option Int) (cs : Int) (hcs : 0 < cs)
    (columns : List Col) (hcol : ∀ c ∈ columns, c.1 = "power") (p : TF) (s e : Int) (hp : HalfOpen p s e) :
    ∃ ch, loadPiece ((ms.map M).map (fun m => m.member (.one "power") req (mk' a b) cs)) sp columns p = .ok ch ∧
      ch.columns = columns ∧ PieceOf M A L ms sp a b cs s e ch := by
  have hn : (0 : Int) < sp * 1000000000 := by omega
  have hfirst : ∀ i ∈ ms, ∃ (out : List (Int × Option Rat)) (o : Option GChunk),
      ((M i).member (.one "power") req (mk' a b) cs).first sp p = .ok o ∧
      ((out = [] ∧ (o = none ∨ ∃ tf, o = some ⟨[], [], tf⟩) ∧ (inPiece a b s e (L i)).length < 2) ∨
        (2 ≤ (inPiece a b s e (L i)).length ∧ Resampled (sp * 1000000000) ((M i).carried sp)
            (asRows ((inPiece a b s e (L i)).take (cs.toNat + 1))) out ∧
          ∃ tf x y, o = some ⟨[("power", A i)], out.map (fun r => (r.1, [r.2])), some tf⟩ ∧ HalfOpen tf x y ∧ x < y)) := by
    intro i hi
    rcases Nat.lt_or_ge (inPiece a b s e (L i)).length 2 with hlt | hge
    · obtain ⟨o, h1, h2, -⟩ := holds_few (h i hi) sp hsp (mk' a b) p cs hcs _ (mem_piece a b p s e hp) hlt
      exact ⟨[], o, h1, Or.inl ⟨rfl, h2, hlt⟩⟩
    · obtain ⟨out, tf, x, y, h1, h2, h3, h4⟩ := holds_first (h i hi) sp hsp (mk' a b) p cs hcs _ (mem_piece a b p s e hp) hge
      exact ⟨out, _, h1, Or.inr ⟨hge, h2, tf, x, y, rfl, h3, h4⟩⟩
  choose! outs os h1 h2 using hfirst
  have hmapE : mapE (fun m : LMeter => m.first (sp : Rat) p)
      ((ms.map M).map (fun m => m.member (.one "power") req (mk' a b) cs)) = .ok (ms.map os) := by
    rw [mapE_ok, List.forall₂_map_left_iff, List.forall₂_map_left_iff, List.forall₂_map_right_iff, List.forall₂_same]
    exact h1
  have hres_nodup : ∀ i ∈ ms, ((outs i).map Prod.fst).Nodup := by
    intro i hi
    rcases h2 i hi with ⟨h3, -⟩ | ⟨-, h3, -⟩
    · rw [h3]; simp
    · exact regular_nodup _ hn _ _ h3.index
  have hwf : ∀ x, some x ∈ ms.map os → WFChunk x := by
    intro x hx
    obtain ⟨i, hi, hix⟩ := List.mem_map.1 hx
    rcases h2 i hi with ⟨h3, h4, -⟩ | ⟨-, h3, tf, y, z, h4, -⟩
    · rcases h4 with h4 | ⟨tf, h4⟩
      · rw [h4] at hix; cases hix
      · rw [h4] at hix
        simp only [Option.some.injEq] at hix
        subst hix
        exact ⟨by simp, by simp, by simp⟩
    · rw [h4] at hix
      simp only [Option.some.injEq] at hix
      subst hix
      refine ⟨?_, by simp, ?_⟩
      · simpa [Function.comp_def] using hres_nodup i hi
      · intro r hr
        obtain ⟨q, _, rfl⟩ := List.mem_map.1 hr
        rfl
  have hcon : ∀ x ∈ contributing (ms.map os), ∃ i ∈ ms, ∃ tf y z,
      x = ⟨[("power", A i)], (outs i).map (fun r => (r.1, [r.2])), some tf⟩ ∧ HalfOpen tf y z ∧ y < z := by
    intro x hx
    unfold contributing at hx
    obtain ⟨o, ho, hox⟩ := List.mem_filterMap.1 hx
    obtain ⟨i, hi, rfl⟩ := List.mem_map.1 ho
    obtain ⟨hox, hpr⟩ := Option.filter_eq_some_iff.1 hox
    rcases h2 i hi with ⟨h3, h4, -⟩ | ⟨-, h3, tf, y, z, h4, h5, h6⟩
    · rcases h4 with h4 | ⟨tf, h4⟩
      · rw [h4] at hox; cases hox
      · rw [h4] at hox
        simp only [Option.some.injEq] at hox
        subst hox
        simp at hpr
    · rw [h4] at hox
      simp only [Option.some.injEq] at hox
      subst hox
      exact ⟨i, hi, tf, y, z, rfl, h5, h6⟩
  have hread : ∀ col t, groupReadings (ms.map os) col t =
      ms.flatMap (fun i => if ("power", A i) = col then readingsAt (outs i) t else []) := by
    intro col t
    unfold groupReadings contributing
    rw [List.filterMap_map]
    clear hmapE hwf hcon hres_nodup h1
    induction ms with
    | nil => rfl
    | cons i ms ih =>
      have ih := ih (fun j hj => h j (List.mem_cons_of_mem _ hj)) (fun j hj => h2 j (List.mem_cons_of_mem _ hj))
      rw [List.flatMap_cons, ← ih, List.filterMap_cons]
      rcases h2 i List.mem_cons_self with ⟨h3, h4, -⟩ | ⟨hlen, h3, tf, y, z, h4, h5, h6⟩
      · rcases h4 with h4 | ⟨tf, h4⟩
        · simp only [Function.comp_apply, h4, Option.filter_none, h3]
          simp [readingsAt]
        · simp only [Function.comp_apply, h4, h3]
          rw [Option.filter_some, if_neg (by simp)]
          simp [readingsAt]
      · simp only [Function.comp_apply, h4]
        by_cases hnil : outs i = []
        · rw [hnil, Option.filter_some, if_neg (by simp)]
          simp [readingsAt]
        · rw [Option.filter_some, if_pos (by simpa [List.isEmpty_iff] using hnil)]
          simp only [List.flatMap_cons, available_column]
  obtain ⟨cells, tf, h3, -, -⟩ := C51_succeeds (dateRangeLeft (sp * 1000000000) (binStart (sp * 1000000000) s) e) columns (ms.map os) hwf
    (by
      intro x hx
      obtain ⟨i, hi, tf, y, z, rfl, h5, h6⟩ := hcon x hx
      exact ⟨tf, y, z, rfl, h5.1, h5.2.2.1, h5.2.2.2, h6⟩)
    (by
      intro x hx y hy hyq
      obtain ⟨i, hi, tf, u, z, rfl, -⟩ := hcon x hx
      simp only [List.mem_singleton] at hy
      subst hy
      simp at hyq)
  have h4 := C51_cells _ columns (ms.map os) cells tf hwf h3
  refine ⟨⟨dateRangeLeft (sp * 1000000000) (binStart (sp * 1000000000) s) e, columns, cells, tf⟩, ?_, rfl, ?_, outs, ?_, ?_⟩
  · exact loadPiece_eq _ _ _ (freqNs_nat sp) hn _ _ _ _ hp _ hmapE _ _ h3
  · exact ⟨_, binStart_first _ s hn, dateRange_grid _ _ _ hn⟩
  · intro i hi
    rcases h2 i hi with ⟨h3, -, h5⟩ | ⟨h5, h3, -⟩
    · exact ⟨fun hge => by omega, fun _ => h3⟩
    · exact ⟨fun _ => h3, fun hlt => by omega⟩
  · show cells = _
    rw [h4]
    apply List.map_congr_left
    intro col hc
    apply List.map_congr_left
    intro t _
    rw [if_neg (by rw [hcol col hc]; decide), hread]

theorem power_quantity {ms : List Measurement} {ac : Req} {asked : List Col}
    (h : convertToCols ms (.one "power") ac none = .ok asked) : ∀ c ∈ asked, c.1 = "power" := by
  have hpq : ∀ l, pqToColumns ms (.one "power") = .ok l → ∀ c ∈ l, c.1 = "power" := by
    intro l hr
    simp only [pqToColumns, pqToColumns1] at hr
    split at hr
    · cases hr
    · cases hr
      intro c hc
      simpa using (List.mem_filter.1 hc).2
  have hsome : ∀ o, (if (Req.one "power").truthy = true then Except.map some (pqToColumns ms (Req.one "power")) else .ok none) = .ok o →
      ∃ q, o = some q ∧ ∀ c ∈ q, c.1 = "power" := by
    intro o ho
    rw [if_pos (by simp [Req.truthy])] at ho
    cases hx : pqToColumns ms (.one "power") with
    | error e => rw [hx] at ho; cases ho
    | ok x => rw [hx] at ho; cases ho; exact ⟨x, rfl, hpq x hx⟩
  unfold convertToCols at h
  rw [if_neg (by simp), if_neg (by simp [Req.truthy])] at h
  split at h
  · split at h
    · cases h
    · rename_i cols hb
      split at h
      · cases h
      · cases h
        simp only [bestColumns, bestColumns1] at hb
        split at hb
        · cases hb
        · split at hb
          · cases hb; simp
          · split at hb
            · cases hb
            · split at hb
              · cases hb; simp
              · cases hb; simp
  · unfold columnsFor at h
    split at h
    · cases h
    · rename_i acCols h1
      split at h
      · cases h
      · rename_i pqCols h2
        obtain ⟨q, rfl, hq⟩ := hsome _ h2
        cases acCols with
        | none =>
          simp only at h
          split at h
          · cases h
          · cases h; exact hq
        | some a =>
          simp only at h
          split at h
          · cases h
          · split at h
            · cases h
            · cases h
              intro c hc
              exact hq c (by simpa using (List.mem_filter.1 hc).2)

theorem stored_span {l : List (Int × Rat)} (hord : l.Pairwise (fun x y => x.1 < y.1)) (a b : Option Int)
    (h2 : 2 ≤ (l.filter (fun r => fromUntil a b r.1)).length) (ac : String) :
    spanStart a l < spanEnd b l ∧
    ∃ f, tableTimeframe (asTable ac l).rows (mk' a b) = .ok f ∧ HalfOpen f (spanStart a l) (spanEnd b l) := by
  obtain ⟨x, hx, y, hy, ⟨hxw, hyw⟩, hxy⟩ : ∃ x ∈ l, ∃ y ∈ l, (fromUntil a b x.1 = true ∧ fromUntil a b y.1 = true) ∧ x.1 < y.1 := by
    match hf : l.filter (fun r => fromUntil a b r.1) with
    | [] => rw [hf] at h2; simp at h2
    | [_] => rw [hf] at h2; simp at h2
    | x :: y :: rest =>
      have hx : x ∈ l.filter (fun r => fromUntil a b r.1) := by rw [hf]; simp
      have hy : y ∈ l.filter (fun r => fromUntil a b r.1) := by rw [hf]; simp
      have hp := hord.sublist (List.filter_sublist (p := fun r => fromUntil a b r.1))
      rw [hf] at hp
      refine ⟨x, (List.mem_filter.1 hx).1, y, (List.mem_filter.1 hy).1, ⟨?_, ?_⟩, (List.pairwise_cons.1 hp).1 y (by simp)⟩
      · simpa using (List.mem_filter.1 hx).2
      · simpa using (List.mem_filter.1 hy).2
  obtain ⟨u, hu⟩ : ∃ u, l.head? = some u := by
    cases l with
    | nil => simp at hx
    | cons u l => exact ⟨u, rfl⟩
  obtain ⟨v, hv⟩ : ∃ v, l.getLast? = some v := by
    cases h : l.getLast? with
    | none => rw [List.getLast?_eq_none_iff] at h; rw [h] at hx; simp at hx
    | some v => exact ⟨v, rfl⟩
  have hux : u.1 ≤ x.1 := by
    cases l with
    | nil => simp at hx
    | cons w l =>
      simp only [List.head?_cons, Option.some.injEq] at hu
      subst hu
      rcases List.mem_cons.1 hx with rfl | hx
      · exact le_refl _
      · exact le_of_lt ((List.pairwise_cons.1 hord).1 x hx)
  have hyv : y.1 ≤ v.1 := by
    obtain ⟨pre, rfl⟩ := List.getLast?_eq_some_iff.1 hv
    rcases List.mem_append.1 hy with hy | hy
    · exact le_of_lt ((List.pairwise_append.1 hord).2.2 y hy v (by simp))
    · simp only [List.mem_singleton] at hy
      rw [hy]
  have hlt : spanStart a l < spanEnd b l := by
    unfold spanStart spanEnd
    rw [hu, hv]
    cases a <;> cases b <;> simp [fromUntil] at hxw hyw ⊢ <;> omega
  refine ⟨hlt, (mk' a b).intersection (mk' (some u.1) (some v.1)), ?_, ?_⟩
  · unfold tableTimeframe asTable
    simp only [List.head?_map, List.getLast?_map, hu, hv, Option.map_some]
    rw [ctor_ok (by rintro p q ⟨⟩ ⟨⟩; omega)]
  · rw [window_and_table]
    have h1 : (a.map (max · u.1)).getD u.1 = spanStart a l := by
      unfold spanStart; rw [hu]; rfl
    have h3 : (b.map (min · v.1)).getD v.1 = spanEnd b l := by
      unfold spanEnd; rw [hv]; rfl
    rw [h1, h3, if_neg (by omega)]
    refine ⟨rfl, ?_, rfl, rfl⟩
    show interInclude (mk' a b) (mk' (some u.1) (some v.1)) = false
    unfold interInclude
    split
    · rfl
    · split <;> rfl

theorem union_span {ι : Type} (F : ι → Except Err TF) (lo hi : ι → Int) (ms : List ι) (acc : TF) (s e : Int) (hacc : HalfOpen acc s e)
    (hse : s < e) (h : ∀ i ∈ ms, lo i < hi i ∧ ∃ f, F i = .ok f ∧ HalfOpen f (lo i) (hi i)) :
    ∃ f S E, unionFrames (some acc) (ms.map F) = .ok (some f) ∧ HalfOpen f S E ∧ S < E ∧
      S ≤ s ∧ e ≤ E ∧ (∀ i ∈ ms, S ≤ lo i ∧ hi i ≤ E) ∧ (S = s ∨ ∃ i ∈ ms, S = lo i) ∧ (E = e ∨ ∃ i ∈ ms, E = hi i) := by
  induction ms generalizing acc s e with
  | nil => exact ⟨acc, s, e, rfl, hacc, hse, le_refl _, le_refl _, by simp, Or.inl rfl, Or.inl rfl⟩
  | cons i ms ih =>
    obtain ⟨h1, f, h2, h3⟩ := h i List.mem_cons_self
    have hu : acc.union f = .ok (mk' (some (min s (lo i))) (some (max e (hi i)))) := by
      unfold TF.union
      rw [hacc.2.2.1, hacc.2.2.2, h3.2.2.1, h3.2.2.2]
      exact ctor_ok (by rintro p q ⟨⟩ ⟨⟩; omega)
    obtain ⟨g, S, E, g1, g2, g3, g4, g5, g6, g7, g8⟩ := ih (mk' (some (min s (lo i))) (some (max e (hi i)))) _ _ ⟨rfl, rfl, rfl, rfl⟩
      (by omega) (fun j hj => h j (List.mem_cons_of_mem _ hj))
    have k1 : S ≤ s ∧ S ≤ lo i := ⟨le_trans g4 (min_le_left _ _), le_trans g4 (min_le_right _ _)⟩
    have k2 : e ≤ E ∧ hi i ≤ E := ⟨le_trans (le_max_left _ _) g5, le_trans (le_max_right _ _) g5⟩
    refine ⟨g, S, E, ?_, g2, g3, k1.1, k2.1, ?_, ?_, ?_⟩
    · rw [List.map_cons, h2, unionFrames, timeframeStep]
      simp only [h3.1, Bool.false_eq_true, if_false, hu]
      exact g1
    · intro j hj
      rcases List.mem_cons.1 hj with rfl | hj
      · exact ⟨k1.2, k2.2⟩
      · exact g6 j hj
    · rcases g7 with g7 | ⟨j, hj, g7⟩
      · rcases min_choice s (lo i) with hm | hm
        · exact Or.inl (g7.trans hm)
        · exact Or.inr ⟨i, List.mem_cons_self, g7.trans hm⟩
      · exact Or.inr ⟨j, List.mem_cons_of_mem _ hj, g7⟩
    · rcases g8 with g8 | ⟨j, hj, g8⟩
      · rcases max_choice e (hi i) with hm | hm
        · exact Or.inl (g8.trans hm)
        · exact Or.inr ⟨i, List.mem_cons_self, g8.trans hm⟩
      · exact Or.inr ⟨j, List.mem_cons_of_mem _ hj, g8⟩

/-- C120. The chunks of `load(physical_quantity='power', ac_type=..., sample_period=sp, chunksize=c)` of a group of meters with two
readings in the window each. They belong to pieces of at most `c` sample periods, which follow one another from when the first meter
starts until the last one ends; each has in each column the sum of the resampled readings of the meters. -/
theorem C120_group_partial {ι : Type} (M : ι → HomeMeter) (A : ι → String) (L : ι → List (Int × Rat)) (req : Req) (ms : List ι)
    (hne : ms ≠ []) (h : ∀ i ∈ ms, HoldsPower (M i) req (A i) (L i)) (sp : Nat) (hsp : 0 < sp) (a b : Option Int)
    (hin : ∀ i ∈ ms, 2 ≤ ((L i).filter (fun r => fromUntil a b r.1)).length) (c : Nat) (hc : 0 < c) (cs : Int) (hcs : 0 < cs) :
    ∃ (S E : Int) (pieces : List TF),
      IsLeast {x | ∃ i ∈ ms, x = spanStart a (L i)} S ∧ IsGreatest {x | ∃ i ∈ ms, x = spanEnd b (L i)} E ∧
      Tiles S E pieces ∧ (∀ p ∈ pieces, ∃ x y, HalfOpen p x y ∧ y - x ≤ c * (sp * 1000000000)) ∧
      (E - S ≤ c * (sp * 1000000000) → pieces.length = 1) ∧
      (loadHomeGroup (ms.map M) (.one "power") req sp (some c) (mk' a b) cs).err = none ∧
      List.Forall₂ (fun p ch => ∃ s e, HalfOpen p s e ∧ PieceOf M A L ms sp a b cs s e ch ∧ ch.columns.Nodup ∧
          ∀ col, col ∈ ch.columns ↔ ∃ i ∈ ms, ∃ cols, convertToCols (M i).stored.measurements (.one "power") req none = .ok cols ∧ col ∈ cols)
        pieces (loadHomeGroup (ms.map M) (.one "power") req sp (some c) (mk' a b) cs).out := by
  have hspan : ∀ i ∈ ms, spanStart a (L i) < spanEnd b (L i) ∧
      ∃ f, (M i).stored.frame (mk' a b) = .ok f ∧ HalfOpen f (spanStart a (L i)) (spanEnd b (L i)) := by
    intro i hi
    obtain ⟨h1, f, h2, h3⟩ := stored_span (h i hi).order a b (hin i hi) (A i)
    refine ⟨h1, f, ?_, h3⟩
    unfold StoredMeter.frame
    rw [(h i hi).table]
    exact h2
  obtain ⟨f, S, E, hf, hho, hSE, hS, hE⟩ : ∃ f S E,
      unionFrames none (ms.map (fun i => (M i).stored.frame (mk' a b))) = .ok (some f) ∧ HalfOpen f S E ∧ S < E ∧
      IsLeast {x | ∃ i ∈ ms, x = spanStart a (L i)} S ∧ IsGreatest {x | ∃ i ∈ ms, x = spanEnd b (L i)} E := by
    cases ms with
    | nil => exact absurd rfl hne
    | cons i ms =>
      obtain ⟨h1, f0, h2, h3⟩ := hspan i List.mem_cons_self
      obtain ⟨f, S, E, g1, g2, g3, g4, g5, g6, g7, g8⟩ := union_span (fun i => (M i).stored.frame (mk' a b)) (fun i => spanStart a (L i))
        (fun i => spanEnd b (L i)) ms f0 _ _ h3 h1 (fun j hj => hspan j (List.mem_cons_of_mem _ hj))
      refine ⟨f, S, E, ?_, g2, g3, ⟨?_, ?_⟩, ⟨?_, ?_⟩⟩
      · rw [List.map_cons, h2, unionFrames, timeframeStep]
        exact g1
      · rcases g7 with g7 | ⟨j, hj, g7⟩
        · exact ⟨i, List.mem_cons_self, g7⟩
        · exact ⟨j, List.mem_cons_of_mem _ hj, g7⟩
      · rintro x ⟨j, hj, rfl⟩
        rcases List.mem_cons.1 hj with rfl | hj
        · exact g4
        · exact (g6 j hj).1
      · rcases g8 with g8 | ⟨j, hj, g8⟩
        · exact ⟨i, List.mem_cons_self, g8⟩
        · exact ⟨j, List.mem_cons_of_mem _ hj, g8⟩
      · rintro x ⟨j, hj, rfl⟩
        rcases List.mem_cons.1 hj with rfl | hj
        · exact g5
        · exact (g6 j hj).2
  have hn : (0 : Int) < c * (sp * 1000000000) := by
    have : (0 : Int) < c := by exact_mod_cast hc
    have : (0 : Int) < sp * 1000000000 := by omega
    positivity
  obtain ⟨ht1, ht2, ht3, ht4⟩ := C05_split_tiles f S E _ hho hSE hn
  have hcols : ∃ columns, groupColumns ((ms.map M).map (fun m => m.member (.one "power") req (mk' a b) cs)) (.one "power") req none = .ok columns ∧
      columns.Nodup ∧ ∀ col, col ∈ columns ↔
        ∃ i ∈ ms, ∃ cols, convertToCols (M i).stored.measurements (.one "power") req none = .ok cols ∧ col ∈ cols := by
    unfold groupColumns
    have hex : ∀ i ∈ ms, ∃ cols, convertToCols (M i).stored.measurements (.one "power") req none = .ok cols := by
      intro i hi
      obtain ⟨asked, h1, -⟩ := (h i hi).asked
      exact ⟨asked, h1⟩
    obtain ⟨r, hr⟩ : ∃ r, collect (fun m : LMeter => convertToCols m.measurements (.one "power") req none)
        ((ms.map M).map (fun m => m.member (.one "power") req (mk' a b) cs)) = .ok r := by
      refine ⟨_, collect_ok _ (fun m => (convertToCols m.measurements (.one "power") req none).toOption.getD []) _ ?_⟩
      intro m hm
      simp only [List.map_map, List.mem_map, Function.comp_apply] at hm
      obtain ⟨i, hi, rfl⟩ := hm
      obtain ⟨cols, hcl⟩ := hex i hi
      show convertToCols (M i).stored.measurements _ _ _ = .ok ((convertToCols (M i).stored.measurements _ _ _).toOption.getD [])
      rw [hcl]
      rfl
    rw [hr]
    refine ⟨r.dedup, rfl, List.nodup_dedup _, ?_⟩
    intro col
    rw [List.mem_dedup, collect_mem hr]
    simp only [List.map_map, List.mem_map, Function.comp_apply]
    constructor
    · rintro ⟨m, ⟨i, hi, rfl⟩, cols, hx, hy⟩
      exact ⟨i, hi, cols, hx, hy⟩
    · rintro ⟨i, hi, cols, hx, hy⟩
      exact ⟨_, ⟨i, hi, rfl⟩, cols, hx, hy⟩
  obtain ⟨columns, hgc, hnd, hmem⟩ := hcols
  have hcol : ∀ col ∈ columns, col.1 = "power" := by
    intro col hcl
    obtain ⟨i, hi, cols, hx, hy⟩ := (hmem col).1 hcl
    exact power_quantity hx col hy
  obtain ⟨period, hper⟩ := groupPeriod_some ((ms.map M).map (fun m => m.member (.one "power") req (mk' a b) cs)) (by simpa using hne)
  have hframes : ((ms.map M).map (fun m => m.member (.one "power") req (mk' a b) cs)).map LMeter.frame =
      ms.map (fun i => (M i).stored.frame (mk' a b)) := by
    rw [List.map_map, List.map_map]
    rfl
  have hpiece : ∀ p ∈ (f.split (c * (sp * 1000000000))).out, ∃ ch,
      loadPiece ((ms.map M).map (fun m => m.member (.one "power") req (mk' a b) cs)) sp columns p = .ok ch ∧
      ∃ s e, HalfOpen p s e ∧ PieceOf M A L ms sp a b cs s e ch ∧ ch.columns.Nodup ∧
          ∀ col, col ∈ ch.columns ↔ ∃ i ∈ ms, ∃ cols, convertToCols (M i).stored.measurements (.one "power") req none = .ok cols ∧ col ∈ cols := by
    intro p hp
    obtain ⟨x, y, hxy, -⟩ := ht3 p hp
    obtain ⟨ch, h1, h2, h3⟩ := stored_piece M A L req ms h sp hsp a b cs hcs columns hcol p x y hxy
    exact ⟨ch, h1, x, y, hxy, h3, by rw [h2]; exact hnd, by rw [h2]; exact hmem⟩
  obtain ⟨out, ho1, ho2⟩ := yieldEach_exists hpiece
  have hsplit : splitTimeframes [f] (c * (sp * 1000000000)) = ⟨(f.split (c * (sp * 1000000000))).out, none⟩ := by
    apply splitTimeframes_one
    cases hx : f.split (c * (sp * 1000000000)) with
    | mk o er => rw [hx] at ht1; simp only at ht1; rw [ht1]
  have hload : loadHomeGroup (ms.map M) (.one "power") req sp (some c) (mk' a b) cs = ⟨out, none⟩ := by
    unfold loadHomeGroup groupLoad
    simp only [hper, hframes, hf, hgc, Option.getD_some, Option.getD_none, Option.toList_some, List.cons_ne_nil, if_false,
      thresholdNs_nat, hsplit]
    exact ho1
  rw [hload]
  refine ⟨S, E, _, hS, hE, ht2, ht3, ?_, rfl, ho2⟩
  intro hle
  unfold TF.split TF.timedelta
  simp only [hho.2.2.1, hho.2.2.2, ge_iff_le, hle, if_true, List.length_singleton]

/-! ### REDD -/

/-- The devices of the channels: a load of power of the AC type `req` asks for what `convert_redd` writes. -/
structure AsksFor (chans : List Nat) (ms : Nat → List Measurement) (msp : Nat → Int) (req : Req) : Prop where
  asked : ∀ c ∈ chans, ∃ cols, convertToCols (ms c) (.one "power") req none = .ok cols ∧ ("power", reddAc c) ∈ cols
  period : ∀ c ∈ chans, 0 < msp c

theorem redd_holds {sort : List (Int × Option Rat) → List (Int × Option Rat)} (hs : SortsByTime sort)
    {tree : RawTree (Option Rat)} (hx : ExpectedTree tree) {house : Nat} {chans : List Nat} {file order : Nat → List (Int × Rat)}
    {ms : Nat → List Measurement} {f : Nat → Rat → Rat} (h : ReddFiles tree house chans file order ms f) {msp : Nat → Int} {req : Req}
    (hq : AsksFor chans ms msp req) (period : Nat → Rat) (c : Nat) (hc : c ∈ chans) :
    HoldsPower (reddHome sort tree house ms msp period c) req (reddAc c) (reddReadings (order c) id) := by
  obtain ⟨⟨h1, -, h2, -⟩, -⟩ := redd_readings hs hx h msp c hc
  exact ⟨h1, h2, hq.asked c hc, hq.period c hc⟩

/-- C120. From the files to the resampled data of a channel: `next(meter.load(physical_quantity='power', ac_type=..., sample_period=sp))`
after converting REDD has the first `cs + 1` readings of the file in the window, in the order of time and resampled; all of them if there
are no more. The limits of the device are not applied. -/
theorem C120_redd_meter_partial {sort : List (Int × Option Rat) → List (Int × Option Rat)} (hs : SortsByTime sort)
    {tree : RawTree (Option Rat)} (hx : ExpectedTree tree) {house : Nat} {chans : List Nat} {file order : Nat → List (Int × Rat)}
    {ms : Nat → List Measurement} {f : Nat → Rat → Rat} (h : ReddFiles tree house chans file order ms f) {msp : Nat → Int} {req : Req}
    (hq : AsksFor chans ms msp req) (period : Nat → Rat) (chan : Nat) (hch : chan ∈ chans) (sp : Nat)
    (hsp : 0 < sp) (a b : Option Int) (hab : ∀ x y, a = some x → b = some y → x < y) (cs : Int) (hcs : 0 < cs)
    (h2 : 2 ≤ ((reddReadings (order chan) id).filter (fun r => fromUntil a b r.1)).length) :
    ∃ (out : List (Int × Option Rat)) (tf : TF),
      firstOf ((reddHome sort tree house ms msp period chan).load (.one "power") req sp none (mk' a b) cs) =
        .ok (some ⟨[("power", reddAc chan)], out.map (fun r => (r.1, [r.2])), some tf⟩) ∧
      Resampled (sp * 1000000000) ⌈((msp chan : Rat) / 1000000000) / sp⌉
        (asRows (((reddReadings (order chan) id).filter (fun r => fromUntil a b r.1)).take (cs.toNat + 1))) out ∧
      ((((reddReadings (order chan) id).filter (fun r => fromUntil a b r.1)).length : Int) ≤ cs + 1 →
        Resampled (sp * 1000000000) ⌈((msp chan : Rat) / 1000000000) / sp⌉
          (asRows ((reddReadings (order chan) id).filter (fun r => fromUntil a b r.1))) out) :=
  C120_meter_partial (redd_holds hs hx h hq period chan hch) sp hsp a b hab cs hcs h2

/-- C120. From the files to the resampled data of a group of channels. -/
theorem C120_redd_group_partial {sort : List (Int × Option Rat) → List (Int × Option Rat)} (hs : SortsByTime sort)
    {tree : RawTree (Option Rat)} (hx : ExpectedTree tree) {house : Nat} {chans : List Nat} {file order : Nat → List (Int × Rat)}
    {ms : Nat → List Measurement} {f : Nat → Rat → Rat} (h : ReddFiles tree house chans file order ms f) {msp : Nat → Int} {req : Req}
    (hq : AsksFor chans ms msp req) (period : Nat → Rat) (hne : chans ≠ []) (sp : Nat) (hsp : 0 < sp) (a b : Option Int)
    (hin : ∀ c ∈ chans, 2 ≤ ((reddReadings (order c) id).filter (fun r => fromUntil a b r.1)).length)
    (size : Nat) (hsize : 0 < size) (cs : Int) (hcs : 0 < cs) :
    ∃ (S E : Int) (pieces : List TF),
      IsLeast {x | ∃ c ∈ chans, x = spanStart a (reddReadings (order c) id)} S ∧
      IsGreatest {x | ∃ c ∈ chans, x = spanEnd b (reddReadings (order c) id)} E ∧
      Tiles S E pieces ∧ (∀ p ∈ pieces, ∃ x y, HalfOpen p x y ∧ y - x ≤ size * (sp * 1000000000)) ∧
      (E - S ≤ size * (sp * 1000000000) → pieces.length = 1) ∧
      (loadHomeGroup (chans.map (reddHome sort tree house ms msp period)) (.one "power") req sp (some size) (mk' a b) cs).err = none ∧
      List.Forall₂ (fun p ch => ∃ s e, HalfOpen p s e ∧
          PieceOf (reddHome sort tree house ms msp period) reddAc (fun c => reddReadings (order c) id) chans sp a b cs s e ch ∧
          ch.columns.Nodup ∧
          ∀ col, col ∈ ch.columns ↔ ∃ c ∈ chans, ∃ cols, convertToCols (ms c) (.one "power") req none = .ok cols ∧ col ∈ cols)
        pieces (loadHomeGroup (chans.map (reddHome sort tree house ms msp period)) (.one "power") req sp (some size) (mk' a b) cs).out :=
  C120_group_partial (reddHome sort tree house ms msp period) reddAc (fun c => reddReadings (order c) id) req chans hne
    (fun c hc => redd_holds hs hx h hq period c hc) sp hsp a b hin size hsize cs hcs

/-! ### Failures -/

/-- C120. A sample period of zero is a `ZeroDivisionError`; what the device does not measure cannot be loaded; a meter without a table is
a `KeyError`; a group without meters is a `ValueError`. -/
theorem C120_errors (m : HomeMeter) (pq req : Req) (a b : Option Int) (hab : ∀ x y, a = some x → b = some y → x < y) (cs : Int) :
    (∀ sections, m.load pq req 0 sections (mk' a b) cs = Gen.raise .zeroDivisionError) ∧
    (0 < m.stored.maxSamplePeriod → ∀ sp : Nat, 0 < sp → ∀ e, convertToCols m.stored.measurements pq req none = .error e →
      ∀ sections, m.load pq req sp sections (mk' a b) cs = Gen.raise e) ∧
    (0 < m.stored.maxSamplePeriod → ∀ sp : Nat, 0 < sp → ∀ cols, convertToCols m.stored.measurements pq req none = .ok cols →
      m.stored.table = none → m.load pq req sp none (mk' a b) cs = Gen.raise .keyError) ∧
    (∀ sp size, loadHomeGroup [] pq req sp size (mk' a b) cs = Gen.raise .valueError) ∧
    (m.stored.table = none → ∀ rest sp size, ∃ e, loadHomeGroup (m :: rest) pq req sp size (mk' a b) cs = Gen.raise e) := by
  refine ⟨fun sections => ?_, fun hp sp hsp e he sections => ?_, fun hp sp hsp cols hcols ht => ?_, fun sp size => rfl,
    fun ht rest sp size => ?_⟩
  · rfl
  · obtain ⟨kw, hkw⟩ := fillDefaults_given m hp sp hsp
    unfold HomeMeter.load
    rw [hkw]
    simp only [he]
  · obtain ⟨kw, hkw⟩ := fillDefaults_given m hp sp hsp
    unfold HomeMeter.load
    rw [hkw]
    simp only [hcols, ht, Option.map_none]
    have : (hdfLoad (none : Option (List (Row (Option Rat)))) (mk' a b) none 0 cs).1 = Gen.raise .keyError := by
      unfold hdfLoad
      simp only [Option.getD_none, loadSections, loadSection, window_blank a b hab]
      rfl
    rw [this]
    rfl
  · unfold loadHomeGroup groupLoad
    obtain ⟨period, hper⟩ := groupPeriod_some ((m :: rest).map (fun m => m.member pq req (mk' a b) cs)) (by simp)
    refine ⟨.keyError, ?_⟩
    rw [hper]
    simp only [List.map_cons, HomeMeter.member, StoredMeter.frame, ht, unionFrames]

/-- C120. If the time of the first meter is outside the window and the second meter has data there, the group cannot be loaded:
`TypeError`. -/
theorem C120_outside {m m' : HomeMeter} {req : Req} {ac ac' : String} {l l' : List (Int × Rat)} (h : HoldsPower m req ac l)
    (h' : HoldsPower m' req ac' l') (hl : 2 ≤ l.length) (a b : Option Int) (hout : spanEnd b l ≤ spanStart a l)
    (hin : 2 ≤ (l'.filter (fun r => fromUntil a b r.1)).length) (rest : List HomeMeter) (pq : Req) (sp : Rat) (size : Option Int) (cs : Int) :
    loadHomeGroup (m :: m' :: rest) pq req sp size (mk' a b) cs = Gen.raise .typeError := by
  obtain ⟨hlt, f, hf, hho⟩ := stored_span h'.order a b hin ac'
  obtain ⟨hlt0, -⟩ := stored_span h.order none none (by
    rwa [show l.filter (fun r => fromUntil none none r.1) = l from List.filter_eq_self.2 (fun _ _ => rfl)]) ac
  obtain ⟨u, hu⟩ : ∃ u, l.head? = some u := by
    cases l with
    | nil => simp at hl
    | cons u l => exact ⟨u, rfl⟩
  obtain ⟨v, hv⟩ : ∃ v, l.getLast? = some v := by
    cases hx : l.getLast? with
    | none => rw [List.getLast?_eq_none_iff] at hx; rw [hx] at hl; simp at hl
    | some v => exact ⟨v, rfl⟩
  have huv : u.1 < v.1 := by simpa [spanStart, spanEnd, hu, hv] using hlt0
  have h1 : m.stored.frame (mk' a b) = .ok (built none none true (interInclude (mk' a b) (mk' (some u.1) (some v.1)))) := by
    unfold StoredMeter.frame
    rw [h.table]
    show tableTimeframe (asTable ac l).rows (mk' a b) = _
    unfold tableTimeframe asTable
    simp only [List.head?_map, List.getLast?_map, hu, hv, Option.map_some]
    rw [ctor_ok (by rintro p q ⟨⟩ ⟨⟩; omega)]
    simp only
    rw [window_and_table, if_pos]
    have h1 : (a.map (max · u.1)).getD u.1 = spanStart a l := by
      unfold spanStart; rw [hu]; rfl
    have h3 : (b.map (min · v.1)).getD v.1 = spanEnd b l := by
      unfold spanEnd; rw [hv]; rfl
    rw [h1, h3]
    exact hout
  have h2 : m'.stored.frame (mk' a b) = .ok f := by
    unfold StoredMeter.frame
    rw [h'.table]
    exact hf
  obtain ⟨period, hper⟩ := groupPeriod_some ((m :: m' :: rest).map (fun m => m.member pq req (mk' a b) cs)) (by simp)
  unfold loadHomeGroup groupLoad
  rw [hper]
  simp only [List.map_cons, HomeMeter.member, h1, h2, unionFrames, timeframeStep, hho.1, Bool.false_eq_true, if_false]
  rfl

/-! ### What a user may not expect -/

/-- A meter with a reading every ten seconds: 0, 1, 2 and so on; nothing above `top` counts. -/
def tens (n : Nat) (top : Option Rat) : HomeMeter :=
  ⟨⟨some (asTable "active" ((List.range n).map (fun i : Nat => ((i : Int) * 10000000000, (i : Rat))))),
    [⟨"power", some "active", none, top⟩], 30000000000⟩, false, 10⟩

/-- C120. `next` has the first chunk only: here three of five readings. -/
theorem C120_first_chunk_counterexample :
    (firstOf ((tens 5 none).load (.one "power") (.one "active") 10 none (mk' none none) 2)).toOption.map (Option.map GChunk.rows) =
      some (some [(0, [some 0]), (10000000000, [some 1]), (20000000000, [some 2])]) := by
  decide +kernel

/-- C120. A group does not have the last reading, although each of its meters does. -/
theorem C120_last_reading_counterexample :
    (firstOf ((tens 3 none).load (.one "power") (.one "active") 10 none (mk' none none) 100)).toOption.map (Option.map GChunk.rows) =
      some (some [(0, [some 0]), (10000000000, [some 1]), (20000000000, [some 2])]) ∧
    (loadHomeGroup [tens 3 none] (.one "power") (.one "active") 10 (some 100) (mk' none none) 100).out.map (fun c => (c.index, c.cells)) =
      [([0, 10000000000], [[some 0, some 1]])] := by
  constructor <;> decide +kernel

/-- C120. A load does not apply the limits of the device, although `total_energy` does. -/
theorem C120_limits_counterexample :
    (firstOf ((tens 3 (some 1)).load (.one "power") (.one "active") 10 none (mk' none none) 100)).toOption.map (Option.map GChunk.rows) =
      some (some [(0, [some 0]), (10000000000, [some 1]), (20000000000, [some 2])]) := by
  decide +kernel

/-! ### Examples -/

theorem home_asked : AsksFor [1, 2] homeMeasures (fun _ => 10000000000) (.one "apparent") := by
  refine ⟨?_, by simp⟩
  intro c hc
  simp only [List.mem_cons, List.not_mem_nil, or_false] at hc
  rcases hc with rfl | rfl <;> exact ⟨[("power", "apparent")], by decide +kernel, by decide +kernel⟩

example (m : HomeMeter) (h : m.stored.maxSamplePeriod = 1) (ht : m.stored.table = none) (hm : m.stored.measurements = homeMeasures 1) :
    m.load (.one "power") (.one "active") (6 : Nat) none (mk' none none) 100 = Gen.raise .measurementError :=
  (C120_errors m _ _ none none (by simp) 100).2.1 (by omega) 6 (by omega) _ (by rw [hm]; decide +kernel) none

/-- The mains of the home together: one chunk, from the time 0 until 20, without the reading at 20. -/
example {sort : List (Int × Option Rat) → List (Int × Option Rat)} (hs : SortsByTime sort) :
    ∃ c, (loadHomeGroup ([1, 2].map (reddHome sort homeTree 1 homeMeasures (fun _ => 10000000000) (fun _ => 1))) (.one "power")
        (.one "apparent") (10 : Nat) (some 100) (mk' none none) 100).out = [c] ∧
      PieceOf (reddHome sort homeTree 1 homeMeasures (fun _ => 10000000000) (fun _ => 1)) reddAc (fun c => reddReadings (homeOrder c) id)
        [1, 2] 10 none none 100 0 20000000000 c := by
  obtain ⟨S, E, pieces, h1, h2, h3, h4, h5, h6, h7⟩ := C120_redd_group_partial hs homeTree_expected
    (chans := [1, 2]) ⟨home_files.house_le, fun c hc => home_files.chans_le c (by simp at hc ⊢; omega),
      fun c hc => home_files.files c (by simp at hc ⊢; omega), fun c hc => home_files.limits c (by simp at hc ⊢; omega)⟩
    home_asked (fun _ => 1) (by simp) 10 (by omega) none none (by decide +kernel) 100 (by omega) 100 (by omega)
  have hspans : ∀ c ∈ [1, 2], spanStart none (reddReadings (homeOrder c) id) = 0 ∧
      spanEnd none (reddReadings (homeOrder c) id) = 20000000000 := by decide +kernel
  have hS : S = 0 := by
    obtain ⟨c, hc, hx⟩ := h1.1
    exact hx.trans (hspans c hc).1
  have hE : E = 20000000000 := by
    obtain ⟨c, hc, hx⟩ := h2.1
    exact hx.trans (hspans c hc).2
  subst hS hE
  obtain ⟨p, rfl⟩ := List.length_eq_one_iff.1 (h5 (by norm_num))
  obtain ⟨c, cs, ⟨s, e, hp, hpiece, -⟩, htail, hcs⟩ := List.forall₂_cons_left_iff.1 h7
  rw [List.forall₂_nil_left_iff.1 htail] at hcs
  refine ⟨c, hcs, ?_⟩
  cases h3 with
  | cons _ m _ _ _ hp' _ ht =>
    cases ht
    have e1 : s = 0 := Option.some.inj (hp.2.2.1.symm.trans hp'.2.2.1)
    have e2 : e = 20000000000 := Option.some.inj (hp.2.2.2.symm.trans hp'.2.2.2)
    subst e1 e2
    exact hpiece

/-- A meter outside the window before one with data in it. -/
example : loadHomeGroup [tens 3 none, tens 9 none] (.one "power") (.one "active") 10 none (mk' (some 30000000000) none) 100 =
    Gen.raise .typeError :=
  C120_outside (ac := "active") (ac' := "active") (l := (List.range 3).map (fun i : Nat => ((i : Int) * 10000000000, (i : Rat))))
    (l' := (List.range 9).map (fun i : Nat => ((i : Int) * 10000000000, (i : Rat))))
    ⟨rfl, by decide +kernel, ⟨[("power", "active")], by decide +kernel, by simp⟩, by decide⟩
    ⟨rfl, by decide +kernel, ⟨[("power", "active")], by decide +kernel, by simp⟩, by decide⟩ (by simp) _ none (by decide +kernel)
    (by decide +kernel) [] _ 10 none 100

end Nilmtk
