import Verif.Model.Session
import Verif.Props.Experiment
import Verif.Props.DataportDb
import Mathlib.Data.List.Nodup
/-!
C111: what one dataset says about its meters, whichever other datasets are opened in the session.
-/
namespace Nilmtk

/-! ### Specification -/

/-- The file describes device model `n` as `d`, and is read: the devices are loaded with each building. -/
def SFile.Describes (f : SFile) (n : String) (d : SDevice) : Prop :=
  f.buildings ≠ [] ∧ ∃ ds, f.devices = some ds ∧ (n, d) ∈ ds

/-- The keys of the dictionary `meter_devices` are distinct. -/
def SFile.DevicesOnce (f : SFile) : Prop := ∀ ds, f.devices = some ds → (ds.map Prod.fst).Nodup

/-- The last of the files that describe model `n` describes it as `d`. -/
def LastDescribes (fs : List SFile) (n : String) (d : SDevice) : Prop :=
  ∃ pre f post, fs = pre ++ f :: post ∧ f.Describes n d ∧ ∀ g ∈ post, ∀ d', ¬ g.Describes n d'

/-- The meters of a file. -/
def SFile.Has (f : SFile) (m : SessMeter) : Prop :=
  ∃ b ∈ f.buildings, ∃ p ∈ b.meters, m = ⟨⟨p.1, b.inst, b.dataset.or f.name⟩, f.store, p.2⟩

/-- The meters of a file in the order of the file. -/
def SFile.listed (f : SFile) : List SessMeter :=
  f.buildings.flatMap (fun b => b.meters.map (fun p => ⟨⟨p.1, b.inst, b.dataset.or f.name⟩, f.store, p.2⟩))

/-- The file has a building with that dataset and that number. -/
def SFile.HasBuilding (f : SFile) (inst : Int) (dataset : Option String) : Prop :=
  ∃ b ∈ f.buildings, b.inst = inst ∧ b.dataset.or f.name = dataset

/-- No building twice, and no meter twice in a building. -/
def SFile.Proper (f : SFile) : Prop :=
  (f.buildings.map (fun b => (b.inst, b.dataset.or f.name))).Nodup ∧ ∀ b ∈ f.buildings, (b.meters.map Prod.fst).Nodup

/-- What `upstream_meter` of meter `m` gives, according to a file alone: the meter of the same building whose number is
`submeter_of`; for 0 the site meter or, if there are several, the group of them. -/
inductive OwnUpstream (f : SFile) (m : SessMeter) : Option SNode → Prop where
  | site : m.info.site = true → OwnUpstream f m none
  | elec (k : Int) (u : SessMeter) : m.info.site = false → m.info.submeterOf = some k → 0 < k →
      (∀ b, m.info.inBuilding = some b → b = m.id.building) → f.Has u → u.id = ⟨k, m.id.building, m.id.dataset⟩ →
      OwnUpstream f m (some (.elec u))
  | noMains : m.info.site = false → m.info.submeterOf = some 0 → (∀ b, m.info.inBuilding = some b → b = m.id.building) →
      (∀ u, f.Has u → u.id.building = m.id.building → u.id.dataset = m.id.dataset → u.info.site = false) →
      OwnUpstream f m none
  | oneMain (u : SessMeter) : m.info.site = false → m.info.submeterOf = some 0 →
      (∀ b, m.info.inBuilding = some b → b = m.id.building) →
      (∀ v, (f.Has v ∧ v.id.building = m.id.building ∧ v.id.dataset = m.id.dataset ∧ v.info.site = true) ↔ v = u) →
      OwnUpstream f m (some (.elec u))
  | mains (us : List SessMeter) : m.info.site = false → m.info.submeterOf = some 0 →
      (∀ b, m.info.inBuilding = some b → b = m.id.building) → 2 ≤ us.length → us.Nodup → us.Sublist f.listed →
      (∀ v, (f.Has v ∧ v.id.building = m.id.building ∧ v.id.dataset = m.id.dataset ∧ v.info.site = true) ↔ v ∈ us) →
      OwnUpstream f m (some (.mains us))

/-! ### Devices -/

theorem updateDevices_lookup (new d : List (String × SDevice)) (n : String) (hn : (new.map Prod.fst).Nodup) :
    (updateDevices d new).lookup n = ((new.lookup n).or (d.lookup n)) := by
  unfold updateDevices
  induction new generalizing d with
  | nil => simp
  | cons e es ih =>
    rw [List.map_cons, List.nodup_cons] at hn
    rw [List.foldl_cons, ih _ hn.2, dictSet_lookup]
    obtain ⟨k, v⟩ := e
    by_cases h : n = k
    · subst h
      have : es.lookup n = none := by
        rw [List.lookup_eq_none_iff]
        intro p hp
        have : p.1 ≠ n := fun h' => hn.1 (List.mem_map.2 ⟨p, hp, h'⟩)
        simpa using this.symm
      simp [this, List.lookup]
    · have h1 : (n == k) = false := by simpa using h
      simp [h, List.lookup, h1]

theorem openBuildings_devices (f : SFile) (hf : f.DevicesOnce) (bs : List SBuilding) (s : Session) (n : String) :
    (bs.foldl (openBuilding f) s).devices.lookup n =
      if bs = [] then s.devices.lookup n else ((f.devices.getD []).lookup n).or (s.devices.lookup n) := by
  have hn : ((f.devices.getD []).map Prod.fst).Nodup := by
    cases h : f.devices with
    | none => simp
    | some ds => simpa using hf ds h
  induction bs generalizing s with
  | nil => simp
  | cons b bs ih =>
    rw [List.foldl_cons, ih]
    have h1 : (openBuilding f s b).devices.lookup n = ((f.devices.getD []).lookup n).or (s.devices.lookup n) := by
      unfold openBuilding
      exact updateDevices_lookup _ _ _ hn
    rw [h1, if_neg (List.cons_ne_nil b bs)]
    split
    · rfl
    · cases (f.devices.getD []).lookup n <;> simp

theorem describes_lookup (f : SFile) (hf : f.DevicesOnce) (n : String) (d : SDevice) :
    f.Describes n d ↔ f.buildings ≠ [] ∧ (f.devices.getD []).lookup n = some d := by
  unfold SFile.Describes
  constructor
  · rintro ⟨hb, ds, hds, hm⟩
    refine ⟨hb, ?_⟩
    rw [hds]
    exact (mem_iff_lookup (hf ds hds) n d).1 hm
  · rintro ⟨hb, hl⟩
    refine ⟨hb, ?_⟩
    cases h : f.devices with
    | none => rw [h] at hl; simp at hl
    | some ds =>
      rw [h] at hl
      exact ⟨ds, rfl, (mem_iff_lookup (hf ds h) n d).2 hl⟩

theorem session_lookup (fs : List SFile) (hf : ∀ f ∈ fs, f.DevicesOnce) (s : Session) (n : String) (d : SDevice) :
    (fs.foldl openFile s).devices.lookup n = some d ↔
      LastDescribes fs n d ∨ ((∀ f ∈ fs, ∀ d', ¬ f.Describes n d') ∧ s.devices.lookup n = some d) := by
  induction fs generalizing s with
  | nil =>
    rw [List.foldl_nil]
    constructor
    · intro h; exact .inr ⟨by simp, h⟩
    · rintro (⟨pre, f, post, h, -⟩ | ⟨-, h⟩)
      · simp at h
      · exact h
  | cons f fs ih =>
    rw [List.foldl_cons, ih (fun g hg => hf g (List.mem_cons_of_mem _ hg))]
    have hf1 := hf f List.mem_cons_self
    have hopen : (openFile s f).devices.lookup n = some d ↔
        f.Describes n d ∨ ((∀ d', ¬ f.Describes n d') ∧ s.devices.lookup n = some d) := by
      unfold openFile
      rw [openBuildings_devices f hf1]
      simp only [describes_lookup f hf1]
      split
      · rename_i hb; simp [hb]
      · rename_i hb
        cases h : (f.devices.getD []).lookup n with
        | none => simp
        | some d' => simp [hb]
    rw [hopen]
    constructor
    · rintro (⟨pre, g, post, rfl, h1, h2⟩ | ⟨h1, h2 | ⟨h2, h3⟩⟩)
      · exact .inl ⟨f :: pre, g, post, rfl, h1, h2⟩
      · exact .inl ⟨[], f, fs, rfl, h2, h1⟩
      · refine .inr ⟨fun g hg => ?_, h3⟩
        rcases List.mem_cons.1 hg with rfl | hg
        · exact h2
        · exact h1 g hg
    · rintro (⟨pre, g, post, h, h1, h2⟩ | ⟨h1, h2⟩)
      · cases pre with
        | nil =>
          simp only [List.nil_append, List.cons.injEq] at h
          obtain ⟨rfl, rfl⟩ := h
          exact .inr ⟨h2, .inl h1⟩
        | cons p pre =>
          simp only [List.cons_append, List.cons.injEq] at h
          obtain ⟨rfl, rfl⟩ := h
          exact .inl ⟨pre, g, post, rfl, h1, h2⟩
      · exact .inr ⟨fun g hg => h1 g (List.mem_cons_of_mem _ hg), .inr ⟨h1 f List.mem_cons_self, h2⟩⟩

theorem session_lookup_some (fs : List SFile) (hf : ∀ f ∈ fs, f.DevicesOnce) (n : String) (d : SDevice) :
    (session fs).devices.lookup n = some d ↔ LastDescribes fs n d := by
  unfold session
  rw [session_lookup fs hf]
  simp

/-- C111. The device of a meter is the one that the dataset opened last gives for its device model, among those that give one; without
a device model it is empty. -/
theorem C111_device (fs : List SFile) (hf : ∀ f ∈ fs, f.DevicesOnce) (i : SInfo) (d : SDevice) :
    sDevice (session fs).devices i = .ok d ↔
      ((i.model = none ∨ i.model = some "") ∧ d = ⟨none, none, []⟩) ∨
        ∃ n, i.model = some n ∧ n ≠ "" ∧ LastDescribes fs n d := by
  unfold sDevice
  cases hm : i.model with
  | none => simp [SDevice.nothing, eq_comm]
  | some n =>
    by_cases hn : n = ""
    · simp [hn, SDevice.nothing, eq_comm]
    · simp only [hn, if_false]
      have := session_lookup_some fs hf n d
      cases hl : (session fs).devices.lookup n with
      | none => rw [hl] at this; simp at this; simp [this, hn]
      | some d' => rw [hl] at this; simp at this; simp [hn, this]

/-- C111. The device of a meter fails only with `KeyError`, when no dataset opened gives its device model. -/
theorem C111_device_error (fs : List SFile) (hf : ∀ f ∈ fs, f.DevicesOnce) (i : SInfo) (e : Err) :
    sDevice (session fs).devices i = .error e ↔
      e = .keyError ∧ ∃ n, i.model = some n ∧ n ≠ "" ∧ ∀ f ∈ fs, ∀ d, ¬ f.Describes n d := by
  have hex : ∀ n, (∀ d, ¬ LastDescribes fs n d) ↔ ∀ f ∈ fs, ∀ d, ¬ f.Describes n d := by
    intro n
    constructor
    · clear hf
      induction fs with
      | nil => simp
      | cons f fs ih =>
        intro h
        have h1 : ∀ g ∈ fs, ∀ d, ¬ g.Describes n d := by
          apply ih
          rintro d ⟨pre, g, post, rfl, h1, h2⟩
          exact h d ⟨f :: pre, g, post, rfl, h1, h2⟩
        intro g hg d hd
        rcases List.mem_cons.1 hg with rfl | hg
        · exact h d ⟨[], g, fs, rfl, hd, h1⟩
        · exact h1 g hg d hd
    · rintro h d ⟨pre, f, post, rfl, h1, -⟩
      exact h f (by simp) d h1
  unfold sDevice
  cases hm : i.model with
  | none => simp
  | some n =>
    by_cases hn : n = ""
    · simp [hn]
    · simp only [hn, if_false, Option.some.injEq]
      have hl' : ∀ d, (session fs).devices.lookup n = some d ↔ LastDescribes fs n d := session_lookup_some fs hf n
      cases hl : (session fs).devices.lookup n with
      | none =>
        rw [hl] at hl'
        have h0 := (hex n).1 (fun d hd => by simpa using (hl' d).2 hd)
        constructor
        · intro h
          exact ⟨(Except.error.inj h).symm, n, rfl, hn, h0⟩
        · rintro ⟨rfl, -⟩; rfl
      | some d' =>
        rw [hl] at hl'
        constructor
        · intro h; cases h
        · rintro ⟨-, n', rfl, -, h⟩
          exact absurd ((hl' d').1 rfl) ((hex n).2 h d')

/-- C111, partial: the device of a meter is the one of its own dataset as long as no dataset opened later gives another description of
the same device model. Without this it is false: `C111_later_counterexample`. -/
theorem C111_own_device_partial (pre post : List SFile) (f : SFile) (hf : ∀ g ∈ pre ++ f :: post, g.DevicesOnce) (i : SInfo)
    (n : String) (d : SDevice) (hn : n ≠ "") (hi : i.model = some n) (hd : f.Describes n d)
    (hpost : ∀ g ∈ post, ∀ d', g.Describes n d' → d' = d) :
    sDevice (session (pre ++ f :: post)).devices i = .ok d := by
  rw [C111_device _ hf]
  refine .inr ⟨n, hi, hn, ?_⟩
  clear hf
  have key : ∀ (b a : List SFile) (x : SFile), x.Describes n d →
      (∀ y ∈ b, ∀ d', y.Describes n d' → d' = d) → LastDescribes (a ++ x :: b) n d := by
    intro b
    induction hk : b.length using Nat.strong_induction_on generalizing b with
    | _ k ihk =>
      intro a x hx hb
      by_cases hb2 : ∃ y ∈ b, ∃ d', y.Describes n d'
      · obtain ⟨y, hy, d', hyd⟩ := hb2
        obtain rfl := hb y hy d' hyd
        obtain ⟨u, v, rfl⟩ := List.append_of_mem hy
        have := ihk v.length (by subst hk; simp; omega) v rfl (a ++ x :: u) y hyd (fun z hz => hb z (by simp [hz]))
        simpa using this
      · exact ⟨a, x, b, rfl, hx, fun y hy d' hyd => hb2 ⟨y, hy, d', hyd⟩⟩
  exact key post pre f hd hpost

/-! ### What follows from the device -/

/-- C111. The sample period of a meter is that of its device: `None` for an empty device, `KeyError` for a device without one or a
device model that is not known. -/
theorem C111_period (devices : List (String × SDevice)) (i : SInfo) (r : Except Err (Option Rat)) :
    sPeriod devices i = r ↔
      (∃ e, sDevice devices i = .error e ∧ r = .error e) ∨
        (sDevice devices i = .ok ⟨none, none, []⟩ ∧ r = .ok none) ∨
        ∃ d, sDevice devices i = .ok d ∧ d ≠ ⟨none, none, []⟩ ∧
          ((d.period = none ∧ r = .error .keyError) ∨ ∃ p, d.period = some p ∧ r = .ok (some p)) := by
  unfold sPeriod SDevice.nothing
  cases h : sDevice devices i with
  | error e => simp [@eq_comm _ r]
  | ok d =>
    dsimp only
    by_cases hd : d = ⟨none, none, []⟩
    · subst hd
      rw [if_pos rfl]
      constructor
      · rintro rfl; exact .inr (.inl ⟨rfl, rfl⟩)
      · rintro (⟨e, h', -⟩ | ⟨-, h'⟩ | ⟨d, h', h2, -⟩)
        · cases h'
        · exact h'.symm
        · exact absurd (Except.ok.inj h').symm h2
    · rw [if_neg hd]
      cases hp : d.period with
      | none => simp [hd, hp, @eq_comm _ r]
      | some p => simp [hd, hp, @eq_comm _ r]

/-- C111. A column is available exactly when the device has a measurement of it; nothing is listed twice. -/
theorem C111_columns (devices : List (String × SDevice)) (i : SInfo) :
    (∀ cols, sColumns devices i = .ok cols →
      cols.Nodup ∧ ∃ d ms, sDevice devices i = .ok d ∧ d.measurements = some ms ∧
        ∀ c : Col, c ∈ cols ↔ ∃ m ∈ ms, m.pq = c.1 ∧ (m.type = some c.2 ∨ (m.type = none ∧ c.2 = ""))) ∧
      ∀ e, sColumns devices i = .error e ↔
        sDevice devices i = .error e ∨ (e = .keyError ∧ ∃ d, sDevice devices i = .ok d ∧ d.measurements = none) := by
  unfold sColumns sMeasurements
  cases h : sDevice devices i with
  | error e => simp
  | ok d =>
    dsimp only
    cases hm : d.measurements with
    | none =>
      refine ⟨fun _ hc => (by cases hc), fun e => ⟨fun he => .inr ⟨(Except.error.inj he).symm, d, rfl, hm⟩, ?_⟩⟩
      rintro (he | ⟨rfl, -⟩)
      · cases he
      · rfl
    | some ms =>
      constructor
      · intro cols hc
        obtain rfl := Except.ok.inj hc
        refine ⟨List.nodup_dedup _, d, ms, rfl, hm, ?_⟩
        rintro ⟨q, t⟩
        unfold availableColumns
        rw [List.mem_dedup, List.mem_map]
        constructor
        · rintro ⟨m, hmem, he⟩
          obtain ⟨rfl, rfl⟩ := Prod.mk.inj he
          refine ⟨m, hmem, rfl, ?_⟩
          cases m.type <;> simp
        · rintro ⟨m, hmem, rfl, ht | ⟨ht, h2⟩⟩
          · exact ⟨m, hmem, by simp [ht]⟩
          · exact ⟨m, hmem, by simp at h2; simp [ht, h2]⟩
      · intro e; simp [hm]

/-- C111. The AC types of a known physical quantity are those of the measurements of the device that have one. -/
theorem C111_ac_types (devices : List (String × SDevice)) (i : SInfo) (q : String) :
    (q ∉ physicalQuantities → sAcTypes devices i q = .error .valueError) ∧
      (q ∈ physicalQuantities →
        (∀ l, sAcTypes devices i q = .ok l → ∃ d ms, sDevice devices i = .ok d ∧ d.measurements = some ms ∧
          ∀ t, t ∈ l ↔ ∃ m ∈ ms, m.pq = q ∧ m.type = some t) ∧
        ∀ e, sAcTypes devices i q = .error e ↔
          sDevice devices i = .error e ∨ (e = .keyError ∧ ∃ d, sDevice devices i = .ok d ∧ d.measurements = none)) := by
  unfold sAcTypes
  refine ⟨fun h => if_neg h, fun hq => ?_⟩
  rw [if_pos hq]
  unfold sMeasurements availableAcTypes
  cases h : sDevice devices i with
  | error e => simp
  | ok d =>
    dsimp only
    cases hm : d.measurements with
    | none =>
      refine ⟨fun _ hc => (by cases hc), fun e => ⟨fun he => .inr ⟨(Except.error.inj he).symm, d, rfl, hm⟩, ?_⟩⟩
      rintro (he | ⟨rfl, -⟩)
      · cases he
      · rfl
    | some ms =>
      dsimp only
      rw [if_pos hq]
      constructor
      · intro l hl
        obtain rfl := Except.ok.inj hl
        refine ⟨d, ms, rfl, hm, fun t => ?_⟩
        simp only [List.mem_filterMap, List.mem_filter, decide_eq_true_eq]
        constructor
        · rintro ⟨m, ⟨h1, h2⟩, h3⟩; exact ⟨m, h1, h2, h3⟩
        · rintro ⟨m, h1, h2, h3⟩; exact ⟨m, ⟨h1, h2⟩, h3⟩
      · intro e; simp [hm]

theorem maxPeriods_some (ps : List (Option Rat)) (p r : Rat) :
    maxPeriods (some p) ps = .ok (some r) ↔
      (∀ q ∈ ps, ∃ x, q = some x ∧ x ≤ r) ∧ p ≤ r ∧ (r = p ∨ some r ∈ ps) := by
  induction ps generalizing p with
  | nil =>
    simp only [maxPeriods]
    constructor
    · intro h
      obtain rfl := Option.some.inj (Except.ok.inj h)
      simp
    · rintro ⟨-, -, h⟩
      rcases h with rfl | h
      · rfl
      · simp at h
  | cons q qs ih =>
    cases q with
    | none => simp [maxPeriods]
    | some x =>
      rw [maxPeriods, ih]
      by_cases hx : p < x
      · simp only [if_pos hx]
        constructor
        · rintro ⟨h1, h2, h3⟩
          refine ⟨?_, le_trans hx.le h2, ?_⟩
          · intro q hq
            rcases List.mem_cons.1 hq with rfl | hq
            · exact ⟨x, rfl, h2⟩
            · exact h1 q hq
          · rcases h3 with rfl | h3
            · exact .inr (by simp)
            · exact .inr (by simp [h3])
        · rintro ⟨h1, h2, h3⟩
          obtain ⟨x', hx', hle⟩ := h1 (some x) (by simp)
          obtain rfl := Option.some.inj hx'
          refine ⟨fun q hq => h1 q (by simp [hq]), hle, ?_⟩
          rcases h3 with rfl | h3
          · exact absurd hle (not_le.2 hx)
          · rcases List.mem_cons.1 h3 with h3 | h3
            · exact .inl (Option.some.inj h3)
            · exact .inr h3
      · simp only [if_neg hx]
        rw [not_lt] at hx
        constructor
        · rintro ⟨h1, h2, h3⟩
          refine ⟨?_, h2, ?_⟩
          · intro q hq
            rcases List.mem_cons.1 hq with rfl | hq
            · exact ⟨x, rfl, le_trans hx h2⟩
            · exact h1 q hq
          · rcases h3 with rfl | h3
            · exact .inl rfl
            · exact .inr (by simp [h3])
        · rintro ⟨h1, h2, h3⟩
          refine ⟨fun q hq => h1 q (by simp [hq]), h2, ?_⟩
          rcases h3 with rfl | h3
          · exact .inl rfl
          · rcases List.mem_cons.1 h3 with h3 | h3
            · obtain rfl := Option.some.inj h3
              exact .inl (le_antisymm hx h2)
            · exact .inr h3

theorem maxPeriods_none (ps : List (Option Rat)) (p : Option Rat) :
    maxPeriods p ps = .ok none ↔ p = none ∧ ps = [] := by
  induction ps generalizing p with
  | nil => simp [maxPeriods]
  | cons q qs ih =>
    cases p with
    | none => simp [maxPeriods]
    | some p =>
      cases q with
      | none => simp [maxPeriods]
      | some x => rw [maxPeriods, ih]; simp

/-- C111. The sample period of a group is the longest of its meters'. -/
theorem C111_group_period (devices : List (String × SDevice)) (is : List SInfo) (r : Rat) :
    sGroupPeriod devices is = .ok (some r) ↔
      (∀ i ∈ is, ∃ p, sPeriod devices i = .ok (some p) ∧ p ≤ r) ∧ ∃ i ∈ is, sPeriod devices i = .ok (some r) := by
  cases is with
  | nil => simp [sGroupPeriod]
  | cons i is =>
    cases hi : sPeriod devices i with
    | error e => simp [sGroupPeriod, hi]
    | ok p =>
      cases hm : mapE (sPeriod devices) is with
      | error e =>
        simp only [sGroupPeriod, hi, hm]
        constructor
        · intro h; cases h
        · rintro ⟨h1, -⟩
          have : ∃ ys, mapE (sPeriod devices) is = .ok ys := by
            clear hm hi
            have h2 : ∀ j ∈ is, ∃ p, sPeriod devices j = .ok (some p) := by
              intro j hj
              obtain ⟨p, hp, -⟩ := h1 j (by simp [hj])
              exact ⟨p, hp⟩
            clear h1
            induction is with
            | nil => exact ⟨[], rfl⟩
            | cons j js ih =>
              obtain ⟨p, hp⟩ := h2 j (by simp)
              obtain ⟨ys, hys⟩ := ih (fun x hx => h2 x (by simp [hx]))
              exact ⟨some p :: ys, by rw [mapE, hp, hys]⟩
          obtain ⟨ys, hys⟩ := this
          rw [hm] at hys; cases hys
      | ok ps =>
        simp only [sGroupPeriod, hi, hm]
        have hF : List.Forall₂ (fun j y => sPeriod devices j = .ok y) is ps := by
          clear hi
          induction is generalizing ps with
          | nil => rw [mapE] at hm; obtain rfl := Except.ok.inj hm; exact .nil
          | cons j js ih =>
            rw [mapE] at hm
            cases hj : sPeriod devices j with
            | error e => rw [hj] at hm; cases hm
            | ok y =>
              rw [hj] at hm
              cases hjs : mapE (sPeriod devices) js with
              | error e => rw [hjs] at hm; cases hm
              | ok ys =>
                rw [hjs] at hm
                obtain rfl := Except.ok.inj hm
                exact .cons hj (ih ys hjs)
        have hmem1 : ∀ j ∈ is, ∃ y ∈ ps, sPeriod devices j = .ok y := by
          clear hm
          induction hF with
          | nil => simp
          | cons h _ ih =>
            intro j hj
            rcases List.mem_cons.1 hj with rfl | hj
            · exact ⟨_, by simp, h⟩
            · obtain ⟨y, hy, h'⟩ := ih j hj
              exact ⟨y, by simp [hy], h'⟩
        have hmem2 : ∀ y ∈ ps, ∃ j ∈ is, sPeriod devices j = .ok y := by
          clear hm hmem1
          induction hF with
          | nil => simp
          | cons h _ ih =>
            intro y hy
            rcases List.mem_cons.1 hy with rfl | hy
            · exact ⟨_, by simp, h⟩
            · obtain ⟨j, hj, h'⟩ := ih y hy
              exact ⟨j, by simp [hj], h'⟩
        cases p with
        | none =>
          constructor
          · intro h
            cases ps with
            | nil => simp [maxPeriods] at h
            | cons q qs => simp [maxPeriods] at h
          · rintro ⟨h1, -⟩
            obtain ⟨p, hp, -⟩ := h1 i (by simp)
            rw [hi] at hp; simp at hp
        | some p =>
          rw [maxPeriods_some]
          constructor
          · rintro ⟨h1, h2, h3⟩
            constructor
            · intro j hj
              rcases List.mem_cons.1 hj with rfl | hj
              · exact ⟨p, hi, h2⟩
              · obtain ⟨y, hy, hjy⟩ := hmem1 j hj
                obtain ⟨x, rfl, hx⟩ := h1 y hy
                exact ⟨x, hjy, hx⟩
            · rcases h3 with rfl | h3
              · exact ⟨i, by simp, hi⟩
              · obtain ⟨j, hj, h⟩ := hmem2 _ h3
                exact ⟨j, by simp [hj], h⟩
          · rintro ⟨h1, j, hj, h2⟩
            refine ⟨?_, ?_, ?_⟩
            · intro q hq
              obtain ⟨j', hj', h'⟩ := hmem2 q hq
              obtain ⟨p', hp', hle⟩ := h1 j' (by simp [hj'])
              rw [h'] at hp'
              exact ⟨p', Except.ok.inj hp', hle⟩
            · obtain ⟨p', hp', hle⟩ := h1 i (by simp)
              rw [hi] at hp'
              obtain rfl := Option.some.inj (Except.ok.inj hp')
              exact hle
            · rcases List.mem_cons.1 hj with rfl | hj
              · rw [hi] at h2
                exact .inl (Option.some.inj (Except.ok.inj h2)).symm
              · obtain ⟨y, hy, h'⟩ := hmem1 j hj
                rw [h2] at h'
                obtain rfl := Except.ok.inj h'
                exact .inr hy

/-- C111. The sample period of a group without meters is a `ValueError`; a meter without a device is the error of the first such meter;
and a meter of several without a sample period is a `TypeError`. -/
theorem C111_group_period_errors (devices : List (String × SDevice)) :
    sGroupPeriod devices [] = .error .valueError ∧
    (∀ pre i post e, (∀ j ∈ pre, ∃ p, sPeriod devices j = .ok p) → sPeriod devices i = .error e →
      sGroupPeriod devices (pre ++ i :: post) = .error e) ∧
    ∀ is, 2 ≤ is.length → (∀ j ∈ is, ∃ p, sPeriod devices j = .ok p) → (∃ j ∈ is, sPeriod devices j = .ok none) →
      sGroupPeriod devices is = .error .typeError := by
  have hmap : ∀ pre i post e, (∀ j ∈ pre, ∃ p, sPeriod devices j = .ok p) → sPeriod devices i = .error e →
      mapE (sPeriod devices) (pre ++ i :: post) = .error e := by
    intro pre i post e hpre hi
    induction pre with
    | nil => simp [mapE, hi]
    | cons j pre ih =>
      obtain ⟨p, hp⟩ := hpre j (by simp)
      simp [mapE, hp, ih (fun k hk => hpre k (by simp [hk]))]
  refine ⟨rfl, ?_, ?_⟩
  · intro pre i post e hpre hi
    cases pre with
    | nil => simp [sGroupPeriod, hi]
    | cons j pre =>
      obtain ⟨p, hp⟩ := hpre j (by simp)
      simp [sGroupPeriod, hp, hmap pre i post e (fun k hk => hpre k (by simp [hk])) hi]
  · intro is hlen hok hnone
    match is, hlen with
    | i :: j :: rest, _ =>
      obtain ⟨p, hp⟩ := hok i (by simp)
      obtain ⟨ps, hps⟩ : ∃ ps, mapE (sPeriod devices) (j :: rest) = .ok ps := by
        have : ∀ l : List SInfo, (∀ k ∈ l, ∃ p, sPeriod devices k = .ok p) → ∃ ps, mapE (sPeriod devices) l = .ok ps := by
          intro l
          induction l with
          | nil => exact fun _ => ⟨[], rfl⟩
          | cons k l ih =>
            intro h
            obtain ⟨q, hq⟩ := h k (by simp)
            obtain ⟨qs, hqs⟩ := ih (fun x hx => h x (by simp [hx]))
            exact ⟨q :: qs, by simp [mapE, hq, hqs]⟩
        exact this _ (fun k hk => hok k (by simp only [List.mem_cons] at hk ⊢; tauto))
      have hne : ps ≠ [] := by
        rintro rfl
        have := mapE_ok.1 hps
        cases this
      have hn : p = none ∨ none ∈ ps := by
        obtain ⟨k, hk, hk0⟩ := hnone
        rcases List.mem_cons.1 hk with rfl | hk
        · rw [hp] at hk0
          exact .inl (Except.ok.inj hk0)
        · right
          have hmem : ∀ (l : List SInfo) (qs : List (Option Rat)), List.Forall₂ (fun x y => sPeriod devices x = .ok y) l qs → k ∈ l →
              none ∈ qs := by
            intro l qs hl
            induction hl with
            | nil => exact fun h => absurd h (by simp)
            | @cons x y l qs hxy _ ih =>
              intro h
              rcases List.mem_cons.1 h with rfl | h
              · rw [hk0] at hxy
                rw [← Except.ok.inj hxy]
                simp
              · exact List.mem_cons_of_mem _ (ih h)
          exact hmem _ _ (mapE_ok.1 hps) hk
      simp only [sGroupPeriod, hp, hps]
      have key : ∀ (qs : List (Option Rat)) (q : Option Rat), qs ≠ [] → (q = none ∨ none ∈ qs) → maxPeriods q qs = .error .typeError := by
        intro qs
        induction qs with
        | nil => exact fun _ h => absurd rfl h
        | cons x xs ih =>
          intro q _ h
          cases q with
          | none => simp [maxPeriods]
          | some q =>
            cases x with
            | none => simp [maxPeriods]
            | some x =>
              rw [maxPeriods]
              have : none ∈ xs := by simpa using h
              exact ih _ (List.ne_nil_of_mem this) (.inr this)
      exact key ps p hne hn

/-- C111. The sample period of a group is `None` only for a group of one meter without a device. -/
theorem C111_group_period_none (devices : List (String × SDevice)) (is : List SInfo) :
    sGroupPeriod devices is = .ok none ↔ ∃ i, is = [i] ∧ sPeriod devices i = .ok none := by
  cases is with
  | nil => simp [sGroupPeriod]
  | cons i is =>
    cases hi : sPeriod devices i with
    | error e =>
      simp only [sGroupPeriod, hi]
      constructor
      · intro h; cases h
      · rintro ⟨j, hj, h⟩
        rw [← (List.cons.inj hj).1, hi] at h
        cases h
    | ok p =>
      cases is with
      | nil =>
        simp only [sGroupPeriod, hi, mapE, maxPeriods_none]
        constructor
        · rintro ⟨rfl, -⟩; exact ⟨i, rfl, hi⟩
        · rintro ⟨j, hj, h⟩
          rw [← (List.cons.inj hj).1, hi] at h
          exact ⟨Except.ok.inj h, trivial⟩
      | cons j js =>
        constructor
        · intro h
          simp only [sGroupPeriod, hi] at h
          cases hm : mapE (sPeriod devices) (j :: js) with
          | error e => rw [hm] at h; cases h
          | ok ps =>
            rw [hm] at h
            dsimp only at h
            rw [maxPeriods_none] at h
            rw [h.2, mapE] at hm
            split at hm
            · cases hm
            · split at hm
              · cases hm
              · simp at hm
        · rintro ⟨k, hk, -⟩
          simp at hk

/-! ### The global list of meters -/

theorem enrol_filter (P : SId → Bool) (ms acc : List SessMeter) :
    (ms.foldl enrol acc).filter (fun g => P g.id) =
      (ms.filter (fun g => P g.id)).foldl enrol (acc.filter (fun g => P g.id)) := by
  induction ms generalizing acc with
  | nil => rfl
  | cons m ms ih =>
    rw [List.foldl_cons, ih]
    by_cases hm : P m.id = true
    · rw [List.filter_cons_of_pos (p := fun g : SessMeter => P g.id) hm, List.foldl_cons]
      congr 1
      unfold enrol
      have : (acc.filter (fun g => P g.id)).any (fun g => decide (g.id = m.id)) =
          acc.any (fun g => decide (g.id = m.id)) := by
        rw [Bool.eq_iff_iff]
        simp only [List.any_eq_true, List.mem_filter, decide_eq_true_eq]
        constructor
        · rintro ⟨g, ⟨h1, -⟩, h2⟩; exact ⟨g, h1, h2⟩
        · rintro ⟨g, h1, h2⟩; exact ⟨g, ⟨h1, by rw [h2]; exact hm⟩, h2⟩
      rw [this]
      split
      · rfl
      · rw [List.filter_append, List.filter_cons_of_pos (p := fun g : SessMeter => P g.id) hm, List.filter_nil]
    · rw [List.filter_cons_of_neg (p := fun g : SessMeter => P g.id) hm]
      congr 1
      unfold enrol
      split
      · rfl
      · rw [List.filter_append, List.filter_cons_of_neg (p := fun g : SessMeter => P g.id) hm, List.filter_nil, List.append_nil]

/-- All the meters made for a file. -/
def SFile.all (f : SFile) : List SessMeter := f.buildings.flatMap f.metersOf

theorem openFile_meters (f : SFile) (s : Session) : (openFile s f).meters = f.all.foldl enrol s.meters := by
  unfold openFile SFile.all
  generalize f.buildings = bs
  induction bs generalizing s with
  | nil => rfl
  | cons b bs ih => rw [List.foldl_cons, ih, List.flatMap_cons, List.foldl_append]; rfl

theorem session_meters (fs : List SFile) (s : Session) :
    (fs.foldl openFile s).meters = (fs.flatMap SFile.all).foldl enrol s.meters := by
  induction fs generalizing s with
  | nil => rfl
  | cons f fs ih => rw [List.foldl_cons, ih, openFile_meters, List.flatMap_cons, List.foldl_append]

theorem datasetOf_or (f : SFile) (b : SBuilding) : f.datasetOf b = b.dataset.or f.name := by
  unfold SFile.datasetOf
  cases b.dataset <;> rfl

theorem mem_all (f : SFile) (m : SessMeter) : m ∈ f.all ↔ f.Has m := by
  unfold SFile.all SFile.Has SFile.metersOf
  simp only [List.mem_flatMap, List.mem_map, datasetOf_or, eq_comm]

theorem enrol_fresh (ms acc : List SessMeter) (hn : (ms.map SessMeter.id).Nodup) (hd : ∀ m ∈ ms, ∀ g ∈ acc, g.id ≠ m.id) :
    ms.foldl enrol acc = acc ++ ms := by
  induction ms generalizing acc with
  | nil => simp
  | cons m ms ih =>
    rw [List.map_cons, List.nodup_cons] at hn
    have h1 : enrol acc m = acc ++ [m] := by
      unfold enrol
      rw [if_neg]
      simp only [List.any_eq_true, decide_eq_true_eq, not_exists, not_and]
      exact fun g hg => hd m (by simp) g hg
    rw [List.foldl_cons, h1, ih _ hn.2]
    · simp
    · intro m' hm' g hg
      rcases List.mem_append.1 hg with hg | hg
      · exact hd m' (by simp [hm']) g hg
      · obtain rfl := List.mem_singleton.1 hg
        intro h
        exact hn.1 (h ▸ List.mem_map_of_mem hm')

theorem all_nodup (f : SFile) (hp : f.Proper) : (f.all.map SessMeter.id).Nodup := by
  obtain ⟨h1, h2⟩ := hp
  unfold SFile.all
  have : ∀ bs : List SBuilding, (bs.map (fun b => (b.inst, b.dataset.or f.name))).Nodup →
      (∀ b ∈ bs, (b.meters.map Prod.fst).Nodup) → ((bs.flatMap f.metersOf).map SessMeter.id).Nodup := by
    intro bs
    induction bs with
    | nil => simp
    | cons b bs ih =>
      intro hn hm
      rw [List.map_cons, List.nodup_cons] at hn
      rw [List.flatMap_cons, List.map_append, List.nodup_append]
      refine ⟨?_, ih hn.2 (fun x hx => hm x (by simp [hx])), ?_⟩
      · unfold SFile.metersOf
        rw [List.map_map]
        have hb := hm b (by simp)
        rw [show (SessMeter.id ∘ fun p : Int × SInfo => (⟨⟨p.1, b.inst, f.datasetOf b⟩, f.store, p.2⟩ : SessMeter)) =
          (fun k : Int => (⟨k, b.inst, f.datasetOf b⟩ : SId)) ∘ Prod.fst from rfl, ← List.map_map]
        exact hb.map (fun a c h => by simpa using h)
      · intro x hx y hy
        simp only [List.mem_map, List.mem_flatMap, SFile.metersOf] at hx hy
        obtain ⟨mx, ⟨px, -, rfl⟩, rfl⟩ := hx
        obtain ⟨my, ⟨b', hb', py, -, rfl⟩, rfl⟩ := hy
        intro h
        apply hn.1
        simp only [SId.mk.injEq, datasetOf_or] at h
        exact List.mem_map.2 ⟨b', hb', by simp [h.2.1, h.2.2]⟩
  exact this _ h1 h2

theorem session_building (pre post : List SFile) (f : SFile) (hp : f.Proper) (b : Int) (ds : Option String)
    (hother : ∀ g ∈ pre ++ post, ¬ g.HasBuilding b ds) :
    (session (pre ++ f :: post)).meters.filter (fun g => decide (g.id.building = b ∧ g.id.dataset = ds)) =
      f.all.filter (fun g => decide (g.id.building = b ∧ g.id.dataset = ds)) := by
  unfold session
  rw [session_meters, enrol_filter (fun i => decide (i.building = b ∧ i.dataset = ds)), List.flatMap_append, List.flatMap_cons,
    List.filter_append, List.filter_append]
  have hnone : ∀ gs : List SFile, (∀ g ∈ gs, ¬ g.HasBuilding b ds) →
      (gs.flatMap SFile.all).filter (fun g => decide (g.id.building = b ∧ g.id.dataset = ds)) = [] := by
    intro gs h
    rw [List.filter_eq_nil_iff]
    intro m hm
    obtain ⟨g, hg, hm⟩ := List.mem_flatMap.1 hm
    obtain ⟨b', hb', p, -, rfl⟩ := (mem_all g m).1 hm
    simp only [decide_eq_true_eq]
    intro h'
    exact h g hg ⟨b', hb', h'.1, h'.2⟩
  rw [hnone pre (fun g hg => hother g (by simp [hg])), hnone post (fun g hg => hother g (by simp [hg])), List.nil_append,
    List.append_nil, List.filter_nil, enrol_fresh _ _ _ (by simp), List.nil_append]
  exact ((all_nodup f hp).sublist (List.Sublist.map _ List.filter_sublist))

/-- `nilmtk.global_meter_group[id]` sees only the meters of that building. -/
theorem sGet_building (glob : List SessMeter) (id : SId) :
    sGet glob id = sGet (glob.filter (fun g => decide (g.id.building = id.building ∧ g.id.dataset = id.dataset))) id := by
  unfold sGet
  split
  · rw [List.filter_filter]; simp
  · rw [List.find?_filter]
    have : (fun g : SessMeter => decide (decide (g.id.building = id.building ∧ g.id.dataset = id.dataset) = true ∧
        decide (g.id = id) = true)) = fun g : SessMeter => decide (g.id = id) := by
      funext g
      by_cases h : g.id = id <;> simp [h]
    rw [this]

theorem all_listed (f : SFile) : f.all = f.listed := by
  unfold SFile.all SFile.listed SFile.metersOf
  simp only [datasetOf_or]

theorem sUpstream_building (glob glob' : List SessMeter) (m : SessMeter)
    (h : glob.filter (fun g => decide (g.id.building = m.id.building ∧ g.id.dataset = m.id.dataset)) =
      glob'.filter (fun g => decide (g.id.building = m.id.building ∧ g.id.dataset = m.id.dataset))) :
    sUpstream glob m = sUpstream glob' m := by
  unfold sUpstream
  split
  · rfl
  · cases m.info.submeterOf with
    | none => rfl
    | some k =>
      dsimp only
      rw [sGet_building glob, sGet_building glob']
      dsimp only
      rw [h]

theorem own_inBuilding (m : SessMeter) :
    ¬ (m.info.inBuilding ≠ none ∧ m.info.inBuilding ≠ some m.id.building) ↔
      ∀ b, m.info.inBuilding = some b → b = m.id.building := by
  cases h : m.info.inBuilding with
  | none => simp
  | some b => simp

theorem sMains_of (sel : List SessMeter) (h : sel ≠ []) :
    sMains sel = match sel.filter (fun g => g.info.site) with
      | [] => .ok none
      | [g] => .ok (some (.elec g))
      | gs => .ok (some (.mains gs)) := by
  cases sel with
  | nil => exact absurd rfl h
  | cons x xs => rfl

theorem sublists_eq {α : Type} {l a b : List α} (hl : l.Nodup) (ha : a.Sublist l) (hb : b.Sublist l)
    (h : ∀ x, x ∈ a ↔ x ∈ b) : a = b := by
  classical
  have key : ∀ (c l : List α), c.Sublist l → l.Nodup → c = l.filter (fun x => decide (x ∈ c)) := by
    intro c l hc
    induction hc with
    | slnil => intro _; rfl
    | cons x hs ih =>
      intro hl
      rw [List.nodup_cons] at hl
      rw [List.filter_cons_of_neg (by simpa using fun hx => hl.1 (hs.subset hx))]
      exact ih hl.2
    | cons_cons x hs ih =>
      intro hl
      rw [List.nodup_cons] at hl
      rw [List.filter_cons_of_pos (by simp)]
      congr 1
      conv_lhs => rw [ih hl.2]
      apply List.filter_congr
      intro y hy
      have : y ≠ x := fun e => hl.1 (e ▸ hy)
      simp [this]
  rw [key a l ha hl, key b l hb hl]
  simp only [h]

theorem sUpstream_all (f : SFile) (hp : f.Proper) (m : SessMeter) (hm : f.Has m) (r : Option SNode) :
    sUpstream f.all m = .ok r ↔ OwnUpstream f m r := by
  have hnd := all_nodup f hp
  have hnd' : f.all.Nodup := List.Nodup.of_map _ hnd
  have hmem : ∀ v, v ∈ (f.all.filter (fun g => decide (g.id.building = m.id.building ∧
      g.id.dataset = m.id.dataset))).filter (fun g => g.info.site) ↔
      (f.Has v ∧ v.id.building = m.id.building ∧ v.id.dataset = m.id.dataset ∧ v.info.site = true) := by
    intro v
    simp only [List.mem_filter, mem_all, decide_eq_true_eq, and_assoc]
  have hsel : f.all.filter (fun g => decide (g.id.building = m.id.building ∧ g.id.dataset = m.id.dataset)) ≠ [] := by
    apply List.ne_nil_of_mem (a := m)
    rw [List.mem_filter]
    exact ⟨(mem_all f m).2 hm, by simp⟩
  constructor
  · intro h
    unfold sUpstream at h
    cases hs : m.info.site with
    | true =>
      rw [if_pos hs] at h
      obtain rfl := Except.ok.inj h
      exact .site hs
    | false =>
      rw [if_neg (by simp [hs])] at h
      cases hk : m.info.submeterOf with
      | none => rw [hk] at h; cases h
      | some k =>
        rw [hk] at h
        dsimp only at h
        split at h
        · cases h
        · rename_i hneg
          split at h
          · cases h
          · rename_i hin
            rw [own_inBuilding] at hin
            unfold sGet at h
            dsimp only at h
            split at h
            · rename_i h0
              subst h0
              unfold sMains at h
              split at h
              · cases h
              · split at h
                · rename_i hnil
                  obtain rfl := Except.ok.inj h
                  refine .noMains hs hk hin ?_
                  intro u hu h1 h2
                  have := (hmem u).not.1 (by rw [hnil]; simp)
                  simp only [not_and] at this
                  simpa using this hu h1 h2
                · rename_i g hg
                  obtain rfl := Except.ok.inj h
                  refine .oneMain g hs hk hin ?_
                  intro v
                  rw [← hmem v, hg, List.mem_singleton]
                · rename_i gs hne hne1
                  obtain rfl := Except.ok.inj h
                  refine .mains _ hs hk hin ?_ ((hnd'.filter _).filter _) ?_ (fun v => (hmem v).symm)
                  · rcases hl : (f.all.filter (fun g => decide (g.id.building = m.id.building ∧
                      g.id.dataset = m.id.dataset))).filter (fun g => g.info.site) with _ | ⟨x, _ | ⟨y, l⟩⟩
                    · exact absurd hl hne
                    · exact absurd hl (hne1 x)
                    · rw [hl]; simp
                  · rw [← all_listed]
                    exact List.filter_sublist.trans List.filter_sublist
            · rename_i h0
              split at h
              · cases h
              · rename_i g hg
                obtain rfl := Except.ok.inj h
                have hid := List.find?_some hg
                simp only [decide_eq_true_eq] at hid
                exact .elec k g hs hk (by omega) hin ((mem_all f g).1 (List.mem_of_find?_eq_some hg)) hid
  · intro h
    unfold sUpstream
    cases h with
    | site hs => rw [if_pos hs]
    | elec k u hs hk hpos hin hu hid =>
      rw [if_neg (by simp [hs]), hk]
      dsimp only
      rw [if_neg (by omega), if_neg ((own_inBuilding m).2 hin)]
      unfold sGet
      dsimp only
      rw [if_neg (by omega)]
      have hmem : u ∈ f.all := (mem_all f u).2 hu
      have : f.all.find? (fun g => decide (g.id = ⟨k, m.id.building, m.id.dataset⟩)) = some u := by
        cases hf : f.all.find? (fun g => decide (g.id = ⟨k, m.id.building, m.id.dataset⟩)) with
        | none =>
          rw [List.find?_eq_none] at hf
          exact absurd hid (by simpa using hf u hmem)
        | some v =>
          have h1 := List.find?_some hf
          simp only [decide_eq_true_eq] at h1
          have h2 := List.mem_of_find?_eq_some hf
          rw [List.inj_on_of_nodup_map hnd h2 hmem (h1.trans hid.symm)]
      rw [this]
    | noMains hs hk hin hno =>
      rw [if_neg (by simp [hs]), hk]
      dsimp only
      rw [if_neg (by omega), if_neg ((own_inBuilding m).2 hin)]
      unfold sGet
      dsimp only
      rw [if_pos rfl]
      rw [sMains_of _ (hsel), show (f.all.filter (fun g => decide (g.id.building = m.id.building ∧
        g.id.dataset = m.id.dataset))).filter (fun g => g.info.site) = [] from ?_]
      rw [List.eq_nil_iff_forall_not_mem]
      intro v hv
      obtain ⟨h1, h2, h3, h4⟩ := (hmem v).1 hv
      rw [hno v h1 h2 h3] at h4
      cases h4
    | oneMain u hs hk hin hall =>
      rw [if_neg (by simp [hs]), hk]
      dsimp only
      rw [if_neg (by omega), if_neg ((own_inBuilding m).2 hin)]
      unfold sGet
      dsimp only
      rw [if_pos rfl, sMains_of _ (hsel), show (f.all.filter (fun g => decide (g.id.building = m.id.building ∧
        g.id.dataset = m.id.dataset))).filter (fun g => g.info.site) = [u] from ?_]
      rw [← List.perm_singleton, List.perm_ext_iff_of_nodup ((hnd'.filter _).filter _) (by simp)]
      intro v
      rw [hmem v, hall v, List.mem_singleton]
    | mains us hs hk hin hlen hn hsub hall =>
      rw [if_neg (by simp [hs]), hk]
      dsimp only
      rw [if_neg (by omega), if_neg ((own_inBuilding m).2 hin)]
      unfold sGet
      dsimp only
      rw [if_pos rfl, sMains_of _ (hsel), show (f.all.filter (fun g => decide (g.id.building = m.id.building ∧
        g.id.dataset = m.id.dataset))).filter (fun g => g.info.site) = us from ?_]
      · rcases us with _ | ⟨x, _ | ⟨y, l⟩⟩
        · simp at hlen
        · simp at hlen
        · rfl
      · rw [← all_listed] at hsub
        apply sublists_eq hnd' (List.filter_sublist.trans List.filter_sublist) hsub
        intro v
        rw [hmem v, hall v]

theorem ownUpstream_store (f : SFile) (m : SessMeter) (r : SNode) (h : OwnUpstream f m (some r)) :
    (∀ u, r = .elec u → u.store = f.store) ∧ ∀ us, r = .mains us → ∀ u ∈ us, u.store = f.store := by
  have hst : ∀ u, f.Has u → u.store = f.store := by
    rintro u ⟨b, -, p, -, rfl⟩; rfl
  cases h with
  | elec k u _ _ _ _ hu _ =>
    exact ⟨fun v hv => by cases hv; exact hst u hu, fun us hus => by cases hus⟩
  | oneMain u _ _ _ hall =>
    exact ⟨fun v hv => by cases hv; exact hst u ((hall u).2 rfl).1, fun us hus => by cases hus⟩
  | mains us _ _ _ _ _ _ hall =>
    exact ⟨fun v hv => (by cases hv), fun us' hus => by cases hus; exact fun u hu => hst u ((hall u).2 hu).1⟩

/-- C111, partial: as long as no other file opened has a building with the same dataset name and number, `upstream_meter` gives what the
file of the meter says, meters that read from the store of that file, whichever other datasets were opened before or after. Without this it is
false: `C111_reopen_counterexample`. -/
theorem C111_upstream_partial (pre post : List SFile) (f : SFile) (hp : f.Proper) (m : SessMeter) (hm : f.Has m)
    (hother : ∀ g ∈ pre ++ post, ¬ g.HasBuilding m.id.building m.id.dataset) :
    (∀ r, sUpstream (session (pre ++ f :: post)).meters m = .ok r ↔ OwnUpstream f m r) ∧
      (∀ u, sUpstream (session (pre ++ f :: post)).meters m = .ok (some (.elec u)) → u.store = m.store) ∧
      (∀ us, sUpstream (session (pre ++ f :: post)).meters m = .ok (some (.mains us)) → ∀ u ∈ us, u.store = m.store) := by
  have h : ∀ r, sUpstream (session (pre ++ f :: post)).meters m = .ok r ↔ OwnUpstream f m r := by
    intro r
    rw [sUpstream_building _ f.all m (session_building pre post f hp _ _ hother)]
    exact sUpstream_all f hp m hm r
  have hst : m.store = f.store := by
    obtain ⟨b, -, p, -, rfl⟩ := hm; rfl
  refine ⟨h, fun u hu => ?_, fun us hus => ?_⟩
  · rw [hst]; exact (ownUpstream_store f m _ ((h _).1 hu)).1 u rfl
  · rw [hst]; exact (ownUpstream_store f m _ ((h _).1 hus)).2 us rfl

/-- C111, partial (see `C111_upstream_partial`): when `upstream_meter` raises, and what. -/
theorem C111_upstream_error_partial (pre post : List SFile) (f : SFile) (hp : f.Proper) (m : SessMeter) (hm : f.Has m)
    (hother : ∀ g ∈ pre ++ post, ¬ g.HasBuilding m.id.building m.id.dataset) (e : Err) :
    sUpstream (session (pre ++ f :: post)).meters m = .error e ↔
      m.info.site = false ∧
        ((m.info.submeterOf = none ∧ e = .valueError) ∨
          ∃ k, m.info.submeterOf = some k ∧
            ((k < 0 ∧ e = .valueError) ∨
              (0 ≤ k ∧ (∃ b, m.info.inBuilding = some b ∧ b ≠ m.id.building) ∧ e = .notImplemented) ∨
              (0 < k ∧ (∀ b, m.info.inBuilding = some b → b = m.id.building) ∧
                (∀ u, f.Has u → u.id ≠ ⟨k, m.id.building, m.id.dataset⟩) ∧ e = .keyError))) := by
  rw [sUpstream_building _ f.all m (session_building pre post f hp _ _ hother)]
  have hsel : f.all.filter (fun g => decide (g.id.building = m.id.building ∧ g.id.dataset = m.id.dataset)) ≠ [] := by
    apply List.ne_nil_of_mem (a := m)
    rw [List.mem_filter]
    exact ⟨(mem_all f m).2 hm, by simp⟩
  unfold sUpstream
  cases hs : m.info.site with
  | true => simp
  | false =>
    rw [if_neg (by simp)]
    cases hk : m.info.submeterOf with
    | none => simp [@eq_comm _ e]
    | some k =>
      dsimp only
      by_cases hneg : k < 0
      · rw [if_pos hneg]
        constructor
        · intro h; exact ⟨rfl, .inr ⟨k, rfl, .inl ⟨hneg, (Except.error.inj h).symm⟩⟩⟩
        · rintro ⟨-, ⟨h, -⟩ | ⟨k', h, h'⟩⟩
          · cases h
          · obtain rfl := Option.some.inj h
            rcases h' with ⟨-, rfl⟩ | ⟨h1, -⟩ | ⟨h1, -⟩
            · rfl
            · omega
            · omega
      · rw [if_neg hneg]
        by_cases hin : ∀ b, m.info.inBuilding = some b → b = m.id.building
        · rw [if_neg ((own_inBuilding m).2 hin)]
          unfold sGet
          dsimp only
          by_cases h0 : k = 0
          · subst h0
            rw [if_pos rfl, sMains_of _ hsel]
            constructor
            · intro h; split at h <;> cases h
            · rintro ⟨-, ⟨h, -⟩ | ⟨k', h, h'⟩⟩
              · cases h
              · obtain rfl := Option.some.inj h
                rcases h' with ⟨h1, -⟩ | ⟨-, ⟨b, h1, h2⟩, -⟩ | ⟨h1, -⟩
                · omega
                · exact absurd (hin b h1) h2
                · omega
          · rw [if_neg h0]
            constructor
            · intro h
              split at h
              · rename_i hf
                rw [List.find?_eq_none] at hf
                refine ⟨rfl, .inr ⟨k, rfl, .inr (.inr ⟨by omega, hin, ?_, (Except.error.inj h).symm⟩)⟩⟩
                intro u hu
                simpa using hf u ((mem_all f u).2 hu)
              · cases h
            · rintro ⟨-, ⟨h, -⟩ | ⟨k', h, h'⟩⟩
              · cases h
              · obtain rfl := Option.some.inj h
                rcases h' with ⟨h1, -⟩ | ⟨-, ⟨b, h1, h2⟩, -⟩ | ⟨-, -, h1, rfl⟩
                · omega
                · exact absurd (hin b h1) h2
                · have : f.all.find? (fun g => decide (g.id = ⟨k, m.id.building, m.id.dataset⟩)) = none := by
                    rw [List.find?_eq_none]
                    intro u hu
                    simpa using h1 u ((mem_all f u).1 hu)
                  rw [this]
        · rw [if_pos (by rw [← not_iff_not.2 (own_inBuilding m), not_not] at hin; exact hin)]
          have hex : ∃ b, m.info.inBuilding = some b ∧ b ≠ m.id.building := by
            simpa using hin
          constructor
          · intro h
            exact ⟨rfl, .inr ⟨k, rfl, .inr (.inl ⟨by omega, hex, (Except.error.inj h).symm⟩)⟩⟩
          · rintro ⟨-, ⟨h, -⟩ | ⟨k', h, h'⟩⟩
            · cases h
            · obtain rfl := Option.some.inj h
              rcases h' with ⟨h1, -⟩ | ⟨-, -, rfl⟩ | ⟨-, h1, -⟩
              · omega
              · rfl
              · exact absurd h1 hin

/-- C111. Opening a file all of whose meters are known by their identifiers changes nothing in the list of meters: whatever is found in it
reads from the stores opened before. -/
theorem C111_reopen (fs : List SFile) (f : SFile) (h : ∀ m, f.Has m → ∃ g ∈ fs, ∃ m', g.Has m' ∧ m'.id = m.id) :
    (session (fs ++ [f])).meters = (session fs).meters := by
  unfold session
  rw [session_meters, session_meters, List.flatMap_append, List.foldl_append, List.flatMap_singleton]
  have hkeep : ∀ (ms acc : List SessMeter), ∀ g ∈ acc, g ∈ ms.foldl enrol acc := by
    intro ms
    induction ms with
    | nil => intro acc g hg; exact hg
    | cons m ms ih =>
      intro acc g hg
      rw [List.foldl_cons]
      apply ih
      unfold enrol
      split
      · exact hg
      · simp [hg]
  have hall : ∀ (ms acc : List SessMeter), ∀ m ∈ ms, ∃ g ∈ ms.foldl enrol acc, g.id = m.id := by
    intro ms
    induction ms with
    | nil => simp
    | cons x ms ih =>
      intro acc m hm
      rw [List.foldl_cons]
      rcases List.mem_cons.1 hm with rfl | hm
      · have : ∃ g ∈ enrol acc m, g.id = m.id := by
          unfold enrol
          split
          · rename_i hany
            simpa using hany
          · exact ⟨m, by simp, rfl⟩
        obtain ⟨g, hg, hid⟩ := this
        exact ⟨g, hkeep ms _ g hg, hid⟩
      · exact ih _ m hm
  have hsame : ∀ (ms acc : List SessMeter), (∀ m ∈ ms, ∃ g ∈ acc, g.id = m.id) → ms.foldl enrol acc = acc := by
    intro ms
    induction ms with
    | nil => intro acc _; rfl
    | cons m ms ih =>
      intro acc hm
      have h1 : enrol acc m = acc := by
        unfold enrol
        rw [if_pos]
        simpa using hm m (by simp)
      rw [List.foldl_cons, h1]
      exact ih acc (fun x hx => hm x (by simp [hx]))
  apply hsame
  intro m hm
  obtain ⟨g, hg, m', hm', hid⟩ := h m ((mem_all f m).1 hm)
  obtain ⟨x, hx, hxid⟩ := hall (fs.flatMap SFile.all) [] m' (List.mem_flatMap.2 ⟨g, hg, (mem_all g m').2 hm'⟩)
  exact ⟨x, hx, hxid.trans hid⟩

/-! ### Counterexamples and examples -/

/-- A file with one building: a site meter and a submeter of it, and a submeter of the mains. -/
def sampleFile (store : Nat) (name : String) (period : Rat) : SFile :=
  ⟨store, some name, some [("CT", ⟨some period, some [⟨"power", some "active", none, none⟩], []⟩)],
    [⟨1, none, [(1, ⟨some "CT", true, none, none⟩), (2, ⟨some "CT", false, some 1, none⟩), (3, ⟨none, false, some 0, none⟩)]⟩]⟩

/-- Opening a second dataset which calls another device by the same name changes the sample period of the meters of the
first. -/
theorem C111_later_counterexample :
    sPeriod (session [sampleFile 0 "REDD" 1]).devices ⟨some "CT", true, none, none⟩ = .ok (some 1) ∧
      sPeriod (session [sampleFile 0 "REDD" 1, sampleFile 1 "UKPD" 6]).devices ⟨some "CT", true, none, none⟩ = .ok (some 6) := by
  decide +kernel

/-- After a dataset is opened a second time, the meters upstream of its meters read from the store opened first. -/
theorem C111_reopen_counterexample :
    sUpstream (session [sampleFile 0 "REDD" 1, sampleFile 1 "REDD" 1]).meters
        ⟨⟨2, 1, some "REDD"⟩, 1, ⟨some "CT", false, some 1, none⟩⟩ =
      .ok (some (.elec ⟨⟨1, 1, some "REDD"⟩, 0, ⟨some "CT", true, none, none⟩⟩)) := by
  decide +kernel

/-- Datasets without a name are taken for one. -/
theorem C111_unnamed_counterexample :
    sUpstream (session [{ sampleFile 0 "" 1 with name := none }, { sampleFile 1 "" 1 with name := none }]).meters
        ⟨⟨3, 1, none⟩, 1, ⟨none, false, some 0, none⟩⟩ =
      .ok (some (.elec ⟨⟨1, 1, none⟩, 0, ⟨some "CT", true, none, none⟩⟩)) := by
  decide +kernel

example : sUpstream (session ([sampleFile 0 "REDD" 1] ++ sampleFile 1 "UKPD" 6 :: [sampleFile 2 "iAWE" 1])).meters
      ⟨⟨3, 1, some "UKPD"⟩, 1, ⟨none, false, some 0, none⟩⟩ =
    .ok (some (.elec ⟨⟨1, 1, some "UKPD"⟩, 1, ⟨some "CT", true, none, none⟩⟩)) := by decide +kernel

example : (sampleFile 1 "UKPD" 6).Proper ∧ (∀ g ∈ [sampleFile 0 "REDD" 1] ++ [sampleFile 2 "iAWE" 1], ¬ g.HasBuilding 1 (some "UKPD")) := by
  constructor
  · constructor
    · decide +kernel
    · intro b hb
      obtain rfl := List.mem_singleton.1 hb
      decide +kernel
  · intro g hg
    rcases List.mem_append.1 hg with hg | hg <;> obtain rfl := List.mem_singleton.1 hg <;>
      (rintro ⟨b, hb, -, h⟩; obtain rfl := List.mem_singleton.1 hb; revert h; decide +kernel)

example : sGroupPeriod (session [sampleFile 0 "REDD" 1]).devices [⟨some "CT", true, none, none⟩, ⟨some "CT", false, some 1, none⟩] =
    .ok (some 1) := by decide +kernel

end Nilmtk
