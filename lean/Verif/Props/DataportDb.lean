import Verif.Model.DataportDb
import Verif.Props.DataportCsv
import Verif.Props.Ideal
/-!
C110: downloading Dataport from its database.
-/
namespace Nilmtk

/-! ### Specification -/

/-- The tables of active power, whose readings are in kW. -/
def realPowerTables : List String :=
  ["eg_realpower_15min", "eg_realpower_1hr", "eg_realpower_1min", "eg_realpower_1s", "eg_realpower_1s_40homes_dataset"]

/-- The tables with a reading every second. -/
def secondTables : List String :=
  ["eg_angle_1s", "eg_apparentpower_1s", "eg_current_1s", "eg_realpower_1s", "eg_thd_1s", "eg_realpower_1s_40homes_dataset"]

/-- What readings are multiplied by to be in W. -/
def dbScale (table : String) : Rat := if table ∈ realPowerTables then 1000 else 1

/-- The feeds with at least one reading, without those that are to be ignored. -/
def feedsOf (header : List String) (rows : List DpRow) : List String :=
  header.filter (fun c => rows.any (fun r => (r.cell c).isSome) && decide (c ∉ feedIgnore))

/-- A feed the converter knows: the consumption, or an appliance with a type. -/
def KnownFeed (c : String) : Prop := c = "use" ∨ ∃ type, (c, some type) ∈ feedMapping

/-- The rows of a feed as they are stored. -/
def feedRows (localize : Int → Option Int) (scale : Rat) (c : String) (rows : List DpRow) : List (Int × Option Rat) :=
  rows.filterMap (fun r => (localize r.time).map (fun t => (t, (r.cell c).map (fun x => x * scale))))

/-- A chunk that can be stored: its times exist once and its feeds are known. -/
def GoodDbChunk (localize : Int → Option Int) (header : List String) (rows : List DpRow) : Prop :=
  (∀ r ∈ rows, (localize r.time).isSome) ∧ ∀ c ∈ feedsOf header rows, KnownFeed c

/-- What a chunk gives to the meter `j + 1`: the rows of its feed at place `j`. -/
def chunkPart (localize : Int → Option Int) (scale : Rat) (header : List String) (j : Nat) (rows : List DpRow) : List (Int × Option Rat) :=
  ((feedsOf header rows)[j]?).elim [] (fun c => feedRows localize scale c rows)

/-- The table of the meter `j + 1`, if it was `o`, after some chunks. -/
def addParts (localize : Int → Option Int) (scale : Rat) (header : List String) (o : Option (RawTable (Option Rat))) (j : Nat)
    (chunks : List (List DpRow)) : Option (RawTable (Option Rat)) :=
  if ∃ rows ∈ chunks, j < (feedsOf header rows).length then
    some ⟨[("power", "active")], o.elim [] RawTable.rows ++ chunks.flatMap (chunkPart localize scale header j)⟩
  else o

/-- The appliances of the feeds `named` with their meters; the instance counts the appliances of a type. -/
structure DbApps (named : List (String × Nat)) (apps : List DpAppliance) : Prop where
  named : apps.map (fun a => (a.originalName, a.meter)) = named
  type : ∀ a ∈ apps, (a.originalName, some a.type) ∈ feedMapping
  instances : ∀ i a, apps[i]? = some a → a.instanceNo = 1 + (apps.take i).countP (fun o => decide (o.type = a.type))

/-- The metadata of a building with the meters `feeds`. -/
structure DescribesFeeds (number : Nat) (dataid : Int) (feeds : List String) (b : DbMeta) : Prop where
  number : b.number = number
  name : b.originalName = dataid
  meters : b.meters = (feeds.zipIdx 1).map (fun e => (e.2, decide (e.1 = "use")))
  apps : DbApps ((feeds.zipIdx 1).filter (fun e => decide (e.1 ≠ "use"))) b.appliances

/-- A time without the parts of a second. -/
def wholeSecond (t : Int) : Int := t - t % 1000000000

/-- Ten days. -/
def tenDays : Int := 864000000000000

/-- The chunks of time from `start` to `stop`: chunk `k` has the rows of the building from `start + 10 k` days to a second before
`start + 10 (k + 1)` days or `stop`. -/
def fetchedChunks (rows : List DpRow) (dataid start stop : Int) : List (List DpRow) :=
  (List.range ((stop - start + tenDays - 1) / tenDays).toNat).map (fun (k : Nat) =>
    (rows.insertionSort (fun a b => a.time ≤ b.time)).filter (fun r => decide (r.dataid = dataid ∧ wholeSecond (start + k * tenDays) ≤ r.time ∧
      r.time ≤ wholeSecond (min (start + (k + 1) * tenDays) stop) - 1000000000)))

/-! ### A chunk -/

theorem feed_types : (∀ c ∈ feedIgnore, (c, none) ∈ feedMapping) ∧ ∀ e ∈ feedMapping, e.2 = none → e.1 ∈ feedIgnore := by
  constructor <;> decide +kernel

theorem dbApps_snoc {named : List (String × Nat)} {apps : List DpAppliance} (h : DbApps named apps) (c : String) (m : Nat) (type : String)
    (ht : (c, some type) ∈ feedMapping) :
    DbApps (named ++ [(c, m)]) (apps ++ [⟨c, m, type, apps.countP (fun o => decide (o.type = type)) + 1⟩]) := by
  refine ⟨?_, ?_, ?_⟩
  · rw [List.map_append, h.named]
    rfl
  · intro a ha
    rcases List.mem_append.1 ha with ha | ha
    · exact h.type a ha
    · rw [List.mem_singleton] at ha
      subst ha
      exact ht
  · intro i a ha
    by_cases hi : i < apps.length
    · rw [List.getElem?_append_left hi] at ha
      rw [List.take_append_of_le_length (le_of_lt hi)]
      exact h.instances i a ha
    · rw [List.getElem?_append_right (by omega)] at ha
      have h0 : i - apps.length = 0 := by
        by_contra hc
        rw [List.getElem?_eq_none (by simp only [List.length_cons, List.length_nil]; omega)] at ha
        cases ha
      rw [h0] at ha
      have he : i = apps.length := by omega
      subst he
      rw [List.take_left' rfl]
      rw [List.getElem?_cons_zero, Option.some.injEq] at ha
      rw [← ha]
      exact Nat.add_comm _ _

theorem known_lookup (c : String) (hu : c ≠ "use") : KnownFeed c ↔ ∃ type, feedMapping.lookup c = some (some type) := by
  have hn : (feedMapping.map Prod.fst).Nodup := by decide +kernel
  constructor
  · rintro (h | ⟨t, h⟩)
    · exact absurd h hu
    · exact ⟨t, lookup_of_mem_nodup hn h⟩
  · rintro ⟨t, h⟩
    exact Or.inr ⟨t, (mem_iff_lookup hn c (some t)).2 h⟩

/-- The feeds of a frame that are stored. -/
def storedFeeds (frame : List (Int × (String → Option Rat))) (cols : List String) : List String :=
  cols.filter (fun c => frame.any (fun r => (r.2 c).isSome) && !feedIgnore.contains c)

/-- What has been written after the feeds from meter `m` on. -/
structure WroteFeeds (number m : Nat) (frame : List (Int × (String → Option Rat))) (cols : List String)
    (st st' : RawStore (Option Rat)) (b b' : DbMeta) : Prop where
  sameNumber : b'.number = b.number
  name : b'.originalName = b.originalName
  tables : ∀ j c, cols[j]? = some c → st' (meterKey number (m + j)) =
    some ⟨[("power", "active")], ((st (meterKey number (m + j))).elim [] RawTable.rows) ++ frame.map (fun r => (r.1, r.2 c))⟩
  others : ∀ k, (∀ j, j < cols.length → k ≠ meterKey number (m + j)) → st' k = st k
  meters : b'.meters = b.meters ++ (cols.zipIdx m).map (fun e => (e.2, decide (e.1 = "use")))
  apps : ∀ named, DbApps named b.appliances →
    DbApps (named ++ (cols.zipIdx m).filter (fun e => decide (e.1 ≠ "use"))) b'.appliances

theorem dbColumns_spec (number : Nat) (hnum : 1 ≤ number) (frame : List (Int × (String → Option Rat))) : ∀ (cols : List String)
    (m : Nat), 1 ≤ m → ∀ (st : RawStore (Option Rat)) (b : DbMeta),
    ((∀ c ∈ storedFeeds frame cols, KnownFeed c) →
      ∃ st' b', dbColumns number frame cols m (st, b) = ((st', b'), none) ∧ WroteFeeds number m frame (storedFeeds frame cols) st st' b b') ∧
    (¬ (∀ c ∈ storedFeeds frame cols, KnownFeed c) → (dbColumns number frame cols m (st, b)).2 = some .keyError) := by
  intro cols
  induction cols with
  | nil =>
    intro m _ st b
    refine ⟨fun _ => ⟨st, b, rfl, rfl, rfl, by simp [storedFeeds], fun _ _ => rfl, by simp [storedFeeds], ?_⟩, fun h => absurd (by simp [storedFeeds]) h⟩
    intro named h
    simpa [storedFeeds] using h
  | cons c cs ih =>
    intro m hm st b
    obtain ⟨k1, k2⟩ := key_numbers number m hnum hm
    by_cases hcond : (frame.any (fun r => (r.2 c).isSome) && !feedIgnore.contains c) = true
    · have hF : storedFeeds frame (c :: cs) = c :: storedFeeds frame cs := by
        unfold storedFeeds
        exact List.filter_cons_of_pos (p := fun c => frame.any (fun r => (r.2 c).isSome) && !feedIgnore.contains c) hcond
      rw [hF]
      unfold dbColumns
      rw [if_pos hcond, k1]
      simp only
      rw [k2]
      simp only
      have htab : ∀ (st1 st2 : RawStore (Option Rat)),
          st1 = appendTable st (meterKey number m) (frame.map (fun r => (r.1, r.2 c))) →
          (∀ j c, (storedFeeds frame cs)[j]? = some c → st2 (meterKey number (m + 1 + j)) =
            some ⟨[("power", "active")], ((st1 (meterKey number (m + 1 + j))).elim [] RawTable.rows) ++ frame.map (fun r => (r.1, r.2 c))⟩) →
          (∀ k, (∀ j, j < (storedFeeds frame cs).length → k ≠ meterKey number (m + 1 + j)) → st2 k = st1 k) →
          (∀ j c', (c :: storedFeeds frame cs)[j]? = some c' → st2 (meterKey number (m + j)) =
            some ⟨[("power", "active")], ((st (meterKey number (m + j))).elim [] RawTable.rows) ++ frame.map (fun r => (r.1, r.2 c'))⟩) ∧
          (∀ k, (∀ j, j < (c :: storedFeeds frame cs).length → k ≠ meterKey number (m + j)) → st2 k = st k) := by
        rintro st1 st2 rfl h1 h2
        constructor
        · intro j c' hj
          cases j with
          | zero =>
            rw [List.getElem?_cons_zero, Option.some.injEq] at hj
            subst hj
            rw [Nat.add_zero, h2]
            · unfold appendTable RawStore.put
              rw [if_pos rfl]
            · intro j _ he
              have := (meterKey_inj hnum hm hnum (by omega) he).2
              omega
          | succ j =>
            rw [List.getElem?_cons_succ] at hj
            rw [show m + (j + 1) = m + 1 + j by omega, h1 j c' hj]
            have hne : meterKey number (m + 1 + j) ≠ meterKey number m := by
              intro he
              have := (meterKey_inj hnum (by omega) hnum hm he).2
              omega
            unfold appendTable RawStore.put
            rw [if_neg hne]
        · intro k hk
          rw [h2]
          · unfold appendTable RawStore.put
            rw [if_neg]
            have := hk 0 (by simp)
            rwa [Nat.add_zero] at this
          · intro j hj
            have := hk (j + 1) (by rw [List.length_cons]; omega)
            rwa [show m + (j + 1) = m + 1 + j by omega] at this
      have hzip : (c :: storedFeeds frame cs).zipIdx m = (c, m) :: (storedFeeds frame cs).zipIdx (m + 1) := by rw [List.zipIdx_cons]
      by_cases hu : c = "use"
      · rw [if_pos hu]
        have hk : (∀ c' ∈ c :: storedFeeds frame cs, KnownFeed c') ↔ ∀ c' ∈ storedFeeds frame cs, KnownFeed c' := by
          rw [List.forall_mem_cons]
          exact ⟨fun h => h.2, fun h => ⟨Or.inl hu, h⟩⟩
        rw [hk]
        obtain ⟨i1, i2⟩ := ih (m + 1) (by omega) (appendTable st (meterKey number m) (frame.map (fun r => (r.1, r.2 c))))
          { b with meters := b.meters ++ [(m, true)] }
        refine ⟨fun h => ?_, i2⟩
        obtain ⟨st', b', h1, h2⟩ := i1 h
        obtain ⟨t1, t2⟩ := htab _ st' rfl h2.tables h2.others
        refine ⟨st', b', h1, h2.sameNumber, h2.name, t1, t2, ?_, ?_⟩
        · rw [h2.meters, hzip, List.map_cons, List.append_assoc]
          simp [hu]
        · intro named hd
          have := h2.apps named hd
          rw [hzip, List.filter_cons_of_neg (by simp [hu])]
          exact this
      · rw [if_neg hu]
        by_cases hkn : KnownFeed c
        · obtain ⟨type, ht⟩ := (known_lookup c hu).1 hkn
          rw [ht]
          simp only
          have ht2 : (c, some type) ∈ feedMapping := (mem_iff_lookup (by decide +kernel) c (some type)).2 ht
          have hk : (∀ c' ∈ c :: storedFeeds frame cs, KnownFeed c') ↔ ∀ c' ∈ storedFeeds frame cs, KnownFeed c' := by
            rw [List.forall_mem_cons]
            exact ⟨fun h => h.2, fun h => ⟨hkn, h⟩⟩
          rw [hk]
          obtain ⟨i1, i2⟩ := ih (m + 1) (by omega) (appendTable st (meterKey number m) (frame.map (fun r => (r.1, r.2 c))))
            { b with meters := b.meters ++ [(m, false)],
                     appliances := b.appliances ++ [⟨c, m, type, b.appliances.countP (fun o => decide (o.type = type)) + 1⟩] }
          refine ⟨fun h => ?_, i2⟩
          obtain ⟨st', b', h1, h2⟩ := i1 h
          obtain ⟨t1, t2⟩ := htab _ st' rfl h2.tables h2.others
          refine ⟨st', b', h1, h2.sameNumber, h2.name, t1, t2, ?_, ?_⟩
          · rw [h2.meters, hzip, List.map_cons, List.append_assoc]
            simp [hu]
          · intro named hd
            have := h2.apps (named ++ [(c, m)]) (dbApps_snoc hd c m type ht2)
            rw [hzip, List.filter_cons_of_pos (by simp [hu])]
            rwa [List.append_assoc, List.singleton_append] at this
        · refine ⟨fun h => absurd (h c List.mem_cons_self) hkn, fun _ => ?_⟩
          rw [known_lookup c hu] at hkn
          cases hl : feedMapping.lookup c with
          | none => rfl
          | some o =>
            cases o with
            | none => rfl
            | some t => exact absurd ⟨t, hl⟩ hkn
    · have hF : storedFeeds frame (c :: cs) = storedFeeds frame cs := by
        unfold storedFeeds
        exact List.filter_cons_of_neg (p := fun c => frame.any (fun r => (r.2 c).isSome) && !feedIgnore.contains c) hcond
      rw [hF]
      unfold dbColumns
      rw [if_neg hcond]
      exact ih m hm st b

theorem realPower_text (table : String) (h : table ∈ dbTables) :
    (findsInside "_realpower_".toList table.toList = true ↔ table ∈ realPowerTables) ∧
    (findsInside "_1s".toList table.toList = true ↔ table ∈ secondTables) := by
  have : ∀ table ∈ dbTables, (findsInside "_realpower_".toList table.toList = true ↔ table ∈ realPowerTables) ∧
      (findsInside "_1s".toList table.toList = true ↔ table ∈ secondTables) := by decide +kernel
  exact this table h

/-- The frame of a chunk. -/
def chunkFrame (localize : Int → Option Int) (table : String) (rows : List DpRow) : List (Int × (String → Option Rat)) :=
  rows.filterMap (fun r => (localize r.time).map (fun t => (t, fun c => (r.cell c).map (fun x => x * dbScale table))))

theorem dbFrame_spec (localize : Int → Option Int) (table : String) (ht : table ∈ dbTables) (rows : List DpRow) :
    ((∀ r ∈ rows, (localize r.time).isSome) → dbFrame localize table.toList rows = .ok (chunkFrame localize table rows)) ∧
    (¬ (∀ r ∈ rows, (localize r.time).isSome) → dbFrame localize table.toList rows = .error .exception) := by
  have hsc : ∀ x : Rat, (if findsInside "_realpower_".toList table.toList then x * 1000 else x) = x * dbScale table := by
    intro x
    unfold dbScale
    by_cases hr : table ∈ realPowerTables
    · rw [if_pos ((realPower_text table ht).1.2 hr), if_pos hr]
    · rw [if_neg (fun h => hr ((realPower_text table ht).1.1 h)), if_neg hr, mul_one]
  unfold dbFrame chunkFrame
  simp only [hsc]
  induction rows with
  | nil => exact ⟨fun _ => rfl, fun h => absurd (by simp) h⟩
  | cons r rs ih =>
    cases hl : localize r.time with
    | none =>
      refine ⟨fun h => ?_, fun _ => ?_⟩
      · have := h r List.mem_cons_self
        rw [hl] at this
        cases this
      · unfold mapE
        rw [hl]
    | some t =>
      have hall : (∀ x ∈ r :: rs, (localize x.time).isSome) ↔ ∀ x ∈ rs, (localize x.time).isSome := by
        rw [List.forall_mem_cons]
        exact ⟨fun h => h.2, fun h => ⟨by rw [hl]; rfl, h⟩⟩
      rw [hall]
      refine ⟨fun h => ?_, fun h => ?_⟩
      · unfold mapE
        rw [hl, ih.1 h, List.filterMap_cons_some (b := (t, fun c => (r.cell c).map (fun x => x * dbScale table))) (by rw [hl]; rfl)]
      · unfold mapE
        rw [hl, ih.2 h]

theorem chunkFrame_col (localize : Int → Option Int) (table : String) (rows : List DpRow) (c : String) :
    (chunkFrame localize table rows).map (fun r => (r.1, r.2 c)) = feedRows localize (dbScale table) c rows := by
  unfold chunkFrame feedRows
  rw [List.map_filterMap]
  congr 1
  funext r
  cases localize r.time <;> rfl

theorem chunkFrame_feeds (localize : Int → Option Int) (table : String) (header : List String) (rows : List DpRow)
    (h : ∀ r ∈ rows, (localize r.time).isSome) : storedFeeds (chunkFrame localize table rows) header = feedsOf header rows := by
  unfold storedFeeds feedsOf
  congr 1
  funext c
  have h1 : (chunkFrame localize table rows).any (fun r => (r.2 c).isSome) = rows.any (fun r => (r.cell c).isSome) := by
    unfold chunkFrame
    induction rows with
    | nil => rfl
    | cons r rs ih =>
      obtain ⟨t, ht⟩ := Option.isSome_iff_exists.1 (h r List.mem_cons_self)
      rw [List.filterMap_cons_some (b := (t, fun c => (r.cell c).map (fun x => x * dbScale table))) (by rw [ht]; rfl), List.any_cons, List.any_cons,
        ih (fun x hx => h x (List.mem_cons_of_mem _ hx)), Option.isSome_map]
  rw [h1]
  by_cases hc : c ∈ feedIgnore <;> simp [hc]

/-- What the chunks of a building change. -/
structure StoredChunks (localize : Int → Option Int) (scale : Rat) (header : List String) (number : Nat) (dataid : Int)
    (chunks : List (List DpRow)) (s s' : DbState) : Prop where
  tables : ∀ j, s'.store (meterKey number (j + 1)) = addParts localize scale header (s.store (meterKey number (j + 1))) j chunks
  others : ∀ k, (∀ j, k ≠ meterKey number (j + 1)) → s'.store k = s.store k
  last : ∀ rows, chunks.getLast? = some rows → ∃ b, s'.yaml.lookup number = some b ∧ DescribesFeeds number dataid (feedsOf header rows) b
  same : chunks = [] → s'.yaml.lookup number = s.yaml.lookup number
  yaml : ∀ x, x ≠ number → s'.yaml.lookup x = s.yaml.lookup x

theorem addParts_cases (localize : Int → Option Int) (scale : Rat) (header : List String) (j : Nat)
    (chunks : List (List DpRow)) (h : ¬ ∃ rows ∈ chunks, j < (feedsOf header rows).length) :
    chunks.flatMap (chunkPart localize scale header j) = [] := by
  rw [List.flatMap_eq_nil_iff]
  intro rows hr
  unfold chunkPart
  rw [List.getElem?_eq_none (by
    by_contra hc
    exact h ⟨rows, hr, by omega⟩)]
  rfl

theorem addParts_append (localize : Int → Option Int) (scale : Rat) (header : List String) (o : Option (RawTable (Option Rat))) (j : Nat)
    (a b : List (List DpRow)) :
    addParts localize scale header (addParts localize scale header o j a) j b = addParts localize scale header o j (a ++ b) := by
  unfold addParts
  have hex : (∃ rows ∈ a ++ b, j < (feedsOf header rows).length) ↔
      (∃ rows ∈ a, j < (feedsOf header rows).length) ∨ ∃ rows ∈ b, j < (feedsOf header rows).length := by
    constructor
    · rintro ⟨r, hr, h⟩
      rcases List.mem_append.1 hr with hr | hr
      · exact Or.inl ⟨r, hr, h⟩
      · exact Or.inr ⟨r, hr, h⟩
    · rintro (⟨r, hr, h⟩ | ⟨r, hr, h⟩)
      · exact ⟨r, List.mem_append_left _ hr, h⟩
      · exact ⟨r, List.mem_append_right _ hr, h⟩
  by_cases ha : ∃ rows ∈ a, j < (feedsOf header rows).length
  · rw [if_pos ha]
    by_cases hb : ∃ rows ∈ b, j < (feedsOf header rows).length
    · rw [if_pos hb, if_pos (hex.2 (Or.inl ha)), List.flatMap_append, Option.elim_some, List.append_assoc]
    · rw [if_neg hb, if_pos (hex.2 (Or.inl ha)), List.flatMap_append, addParts_cases _ _ _ _ b hb, List.append_nil]
  · rw [if_neg ha]
    by_cases hb : ∃ rows ∈ b, j < (feedsOf header rows).length
    · rw [if_pos hb, if_pos (hex.2 (Or.inr hb)), List.flatMap_append, addParts_cases _ _ _ _ a ha, List.nil_append]
    · rw [if_neg hb, if_neg (fun h => (hex.1 h).elim ha hb)]

theorem stored_nil (localize : Int → Option Int) (scale : Rat) (header : List String) (number : Nat) (dataid : Int) (s : DbState) :
    StoredChunks localize scale header number dataid [] s s :=
  ⟨fun j => by unfold addParts; rw [if_neg (by simp)], fun _ _ => rfl, by simp, fun _ => rfl, fun _ _ => rfl⟩

theorem stored_append {localize : Int → Option Int} {scale : Rat} {header : List String} {number : Nat} {dataid : Int}
    {a b : List (List DpRow)} {s1 s2 s3 : DbState} (h1 : StoredChunks localize scale header number dataid a s1 s2)
    (h2 : StoredChunks localize scale header number dataid b s2 s3) : StoredChunks localize scale header number dataid (a ++ b) s1 s3 := by
  refine ⟨?_, ?_, ?_, ?_, ?_⟩
  · intro j
    rw [h2.tables, h1.tables, addParts_append]
  · intro k hk
    rw [h2.others k hk, h1.others k hk]
  · intro rows hr
    by_cases hb : b = []
    · subst hb
      rw [List.append_nil] at hr
      rw [h2.same rfl]
      exact h1.last rows hr
    · rw [List.getLast?_append_of_ne_nil _ hb] at hr
      exact h2.last rows hr
  · intro h
    rw [List.append_eq_nil_iff] at h
    rw [h2.same h.2, h1.same h.1]
  · intro x hx
    rw [h2.yaml x hx, h1.yaml x hx]

/-- Storing a chunk succeeds if and only if the chunk is good. -/
theorem dbToHdf_spec (localize : Int → Option Int) (table : String) (ht : table ∈ dbTables) (header : List String) (number : Nat)
    (hnum : 1 ≤ number) (dataid : Int) (rows : List DpRow) (s : DbState) :
    (GoodDbChunk localize header rows → ∃ s', dbToHdf localize table.toList header number dataid rows s = (s', none) ∧
      StoredChunks localize (dbScale table) header number dataid [rows] s s') ∧
    (¬ GoodDbChunk localize header rows → ∃ e, (dbToHdf localize table.toList header number dataid rows s).2 = some e) := by
  unfold GoodDbChunk dbToHdf
  by_cases hl : ∀ r ∈ rows, (localize r.time).isSome
  · rw [(dbFrame_spec localize table ht rows).1 hl]
    simp only
    rw [← chunkFrame_feeds localize table header rows hl]
    obtain ⟨i1, i2⟩ := dbColumns_spec number hnum (chunkFrame localize table rows) header 1 (le_refl _) s.store ⟨number, dataid, [], []⟩
    refine ⟨fun h => ?_, fun h => ?_⟩
    · obtain ⟨st', b', h1, h2⟩ := i1 h.2
      rw [h1]
      refine ⟨_, rfl, ?_, ?_, ?_, ?_, ?_⟩
      · intro j
        simp only
        have hf := chunkFrame_feeds localize table header rows hl
        unfold addParts chunkPart
        simp only [List.flatMap_cons, List.flatMap_nil, List.append_nil]
        rw [← hf]
        by_cases hj : j < (storedFeeds (chunkFrame localize table rows) header).length
        · rw [if_pos ⟨rows, List.mem_cons_self, hf ▸ hj⟩]
          have hc := List.getElem?_eq_getElem hj
          have := h2.tables j _ hc
          rw [Nat.add_comm 1 j] at this
          rw [this, hc, Option.elim_some, chunkFrame_col]
        · rw [if_neg]
          · refine h2.others _ ?_
            intro i hi he
            have := (meterKey_inj hnum (by omega) hnum (by omega) he).2
            omega
          · rintro ⟨r, hr, hlt⟩
            rw [List.mem_singleton.1 hr, ← hf] at hlt
            exact hj hlt
      · intro k hk
        refine h2.others k ?_
        intro j _
        rw [Nat.add_comm 1 j]
        exact hk j
      · intro r hr
        rw [List.getLast?_singleton, Option.some.injEq] at hr
        subst hr
        refine ⟨b', ?_, ?_⟩
        · rw [orderedSet_lookup_any, if_pos rfl]
        · rw [← chunkFrame_feeds localize table header rows hl]
          refine ⟨h2.sameNumber, h2.name, ?_, ?_⟩
          · rw [h2.meters]
            rfl
          · have := h2.apps [] ⟨rfl, by simp, by simp⟩
            rwa [List.nil_append] at this
      · intro h
        cases h
      · intro x hx
        rw [orderedSet_lookup_any, if_neg hx]
    · have hk := i2 (fun hk => h ⟨hl, hk⟩)
      refine ⟨.keyError, ?_⟩
      cases hd : dbColumns number (chunkFrame localize table rows) header 1 (s.store, ⟨number, dataid, [], []⟩) with
      | mk p e =>
        rw [hd] at hk
        simp only at hk
        subst hk
        rfl
  · refine ⟨fun h => absurd h.1 hl, fun _ => ⟨.exception, ?_⟩⟩
    rw [(dbFrame_spec localize table ht rows).2 hl]

/-! ### The chunks of time -/

theorem wholeSecond_eq (t : Int) : dbFormat t = wholeSecond t := by
  unfold dbFormat wholeSecond dbSecond
  omega

theorem dbWindows_spec (stop : Int) : ∀ (fuel : Nat) (start : Int), (stop - start + tenDays - 1) / tenDays ≤ fuel →
    dbWindows stop fuel start = (List.range ((stop - start + tenDays - 1) / tenDays).toNat).map (fun (k : Nat) =>
      (start + k * tenDays, min (start + (k + 1) * tenDays) stop - 1000000000)) := by
  intro fuel
  induction fuel with
  | zero =>
    intro start h
    rw [show ((stop - start + tenDays - 1) / tenDays).toNat = 0 by omega]
    rfl
  | succ fuel ih =>
    intro start h
    unfold dbWindows
    by_cases hs : start < stop
    · rw [if_pos hs]
      have hD : dbChunkSize = tenDays := by decide
      have hS : dbSecond = 1000000000 := rfl
      have hnext : (stop - (start + tenDays) + tenDays - 1) / tenDays = (stop - start + tenDays - 1) / tenDays - 1 := by
        unfold tenDays
        omega
      have hpos : 1 ≤ (stop - start + tenDays - 1) / tenDays := by
        unfold tenDays
        omega
      rw [hD, hS, ih (start + tenDays) (by rw [hnext]; push_cast at h; omega), hnext]
      have hn : ((stop - start + tenDays - 1) / tenDays).toNat = ((stop - start + tenDays - 1) / tenDays - 1).toNat + 1 := by omega
      rw [hn, List.range_succ_eq_map, List.map_cons, List.map_map]
      congr 1
      · rw [Nat.cast_zero, zero_mul, add_zero, zero_add, one_mul]
        congr 2
        split <;> omega
      · refine List.map_congr_left (fun k _ => ?_)
        simp only [Function.comp, Nat.cast_succ]
        rw [show start + tenDays + (k : Int) * tenDays = start + ((k : Int) + 1) * tenDays by ring,
          show start + tenDays + ((k : Int) + 1) * tenDays = start + ((k : Int) + 1 + 1) * tenDays by ring]
    · rw [if_neg hs, show ((stop - start + tenDays - 1) / tenDays).toNat = 0 by
        have : (stop - start + tenDays - 1) / tenDays < 1 := by
          unfold tenDays
          omega
        omega]
      rfl

/-- The queries are those for the chunks of time. -/
theorem dbWindows_chunks (rows : List DpRow) (dataid start stop : Int) :
    (dbWindows stop ((stop - start) / dbChunkSize + 1).toNat start).map (fun w => dbQuery rows dataid w.1 w.2) = fetchedChunks rows dataid start stop := by
  rw [dbWindows_spec stop]
  · unfold fetchedChunks
    rw [List.map_map]
    refine List.map_congr_left (fun k _ => ?_)
    unfold dbQuery
    simp only [Function.comp, wholeSecond_eq]
    congr 1
    funext r
    have h : wholeSecond (min (start + ((k : Int) + 1) * tenDays) stop - 1000000000) =
        wholeSecond (min (start + ((k : Int) + 1) * tenDays) stop) - 1000000000 := by
      unfold wholeSecond
      omega
    rw [h, Bool.eq_iff_iff]
    simp [and_assoc]
  · have hD : dbChunkSize = tenDays := by decide
    rw [hD]
    unfold tenDays
    omega

/-- In rows in order of time, those of two adjacent spans of time follow one another. -/
theorem filter_adjacent (l : List DpRow) (hl : l.Pairwise (fun a b => a.time ≤ b.time)) (dataid a b c : Int) (hab : a ≤ b) (hbc : b ≤ c) :
    l.filter (fun r => decide (r.dataid = dataid ∧ a ≤ r.time ∧ r.time < b)) ++ l.filter (fun r => decide (r.dataid = dataid ∧ b ≤ r.time ∧ r.time < c)) =
      l.filter (fun r => decide (r.dataid = dataid ∧ a ≤ r.time ∧ r.time < c)) := by
  induction l with
  | nil => rfl
  | cons x xs ih =>
    rw [List.pairwise_cons] at hl
    by_cases hb : b ≤ x.time
    · have hnil : xs.filter (fun r => decide (r.dataid = dataid ∧ a ≤ r.time ∧ r.time < b)) = [] := by
        rw [List.filter_eq_nil_iff]
        intro y hy hc
        have := hl.1 y hy
        have := (of_decide_eq_true hc).2.2
        omega
      have ih' := ih hl.2
      rw [hnil, List.nil_append] at ih'
      rw [List.filter_cons_of_neg (by simp; omega), hnil, List.nil_append]
      by_cases hx : x.dataid = dataid ∧ x.time < c
      · rw [List.filter_cons_of_pos (by simp; omega), List.filter_cons_of_pos (by simp; omega), ih']
      · rw [List.filter_cons_of_neg (by simp; omega), List.filter_cons_of_neg (by simp; omega), ih']
    · have e2 : (x :: xs).filter (fun r => decide (r.dataid = dataid ∧ b ≤ r.time ∧ r.time < c)) =
          xs.filter (fun r => decide (r.dataid = dataid ∧ b ≤ r.time ∧ r.time < c)) := List.filter_cons_of_neg (by simp; omega)
      rw [e2]
      by_cases hx : x.dataid = dataid ∧ a ≤ x.time
      · rw [List.filter_cons_of_pos (by simp; omega), List.filter_cons_of_pos (by simp; omega), List.cons_append, ih hl.2]
      · rw [List.filter_cons_of_neg (by simp; omega), List.filter_cons_of_neg (by simp; omega), ih hl.2]

/-- The rows in order of time. -/
def inOrder (rows : List DpRow) : List DpRow := rows.insertionSort (fun a b => a.time ≤ b.time)

theorem inOrder_sorted (rows : List DpRow) : (inOrder rows).Pairwise (fun a b => a.time ≤ b.time) := by
  have : Std.Total (fun a b : DpRow => a.time ≤ b.time) := ⟨fun a b => le_total a.time b.time⟩
  have : IsTrans DpRow (fun a b => a.time ≤ b.time) := ⟨fun a b c h1 h2 => le_trans h1 h2⟩
  exact List.pairwise_insertionSort _ _

/-- C110. If the times of the rows are whole seconds, the chunks together have each row of the building from the start until before the
end once, in order of time. -/
theorem C110_coverage (rows : List DpRow) (hr : ∀ r ∈ rows, wholeSecond r.time = r.time) (dataid start stop : Int) (hs : start < stop) :
    (fetchedChunks rows dataid start stop).flatten =
      (inOrder rows).filter (fun r => decide (r.dataid = dataid ∧ wholeSecond start ≤ r.time ∧ r.time < wholeSecond stop)) := by
  have hmem : ∀ r ∈ inOrder rows, wholeSecond r.time = r.time := fun r h => hr r ((List.mem_insertionSort _).1 h)
  have key : ∀ n : Nat, n ≤ ((stop - start + tenDays - 1) / tenDays).toNat →
      ((List.range n).map (fun (k : Nat) => (inOrder rows).filter (fun r => decide (r.dataid = dataid ∧ wholeSecond (start + k * tenDays) ≤ r.time ∧
        r.time ≤ wholeSecond (min (start + (k + 1) * tenDays) stop) - 1000000000)))).flatten =
      (inOrder rows).filter (fun r => decide (r.dataid = dataid ∧ wholeSecond start ≤ r.time ∧ r.time < wholeSecond (min (start + n * tenDays) stop))) := by
    intro n
    induction n with
    | zero =>
      intro _
      rw [Nat.cast_zero, zero_mul, add_zero, min_eq_left (le_of_lt hs)]
      symm
      rw [List.range_zero, List.map_nil, List.flatten_nil, List.filter_eq_nil_iff]
      intro r _ h
      have := of_decide_eq_true h
      omega
    | succ n ih =>
      intro hn
      rw [List.range_succ, List.map_append, List.flatten_append, ih (by omega), List.map_singleton, List.flatten_singleton]
      have hlt : start + n * tenDays < stop := by
        unfold tenDays at hn ⊢
        omega
      rw [min_eq_left (le_of_lt hlt)]
      have hcast : ((n + 1 : Nat) : Int) = (n : Int) + 1 := by push_cast; rfl
      rw [hcast]
      have hnext : start + ((n : Int) + 1) * tenDays = start + n * tenDays + tenDays := by ring
      rw [hnext]
      have h0 : (0 : Int) ≤ (n : Int) * tenDays := by unfold tenDays; omega
      generalize (n : Int) * tenDays = d at *
      rw [← filter_adjacent (inOrder rows) (inOrder_sorted rows) dataid (wholeSecond start) (wholeSecond (start + d))
        (wholeSecond (min (start + d + tenDays) stop)) (by unfold wholeSecond; omega) (by unfold wholeSecond tenDays; omega)]
      congr 1
      refine List.filter_congr (fun r hrm => ?_)
      have h1 := hmem r hrm
      rw [decide_eq_decide]
      unfold wholeSecond at *
      omega
  have := key _ (le_refl _)
  unfold fetchedChunks
  unfold inOrder at this
  rw [this]
  unfold inOrder
  congr 1
  funext r
  rw [min_eq_right]
  unfold tenDays
  omega

/-! ### A building -/

/-- How many views have the name of the table in theirs. -/
def viewCount (db : DpDatabase) (table : String) : Nat := db.views.countP (fun v => decide (table.toList <:+: v))

/-- The chunks of a building for one view. -/
def onceChunks (db : DpDatabase) (table : String) (dataid : Int) (period : Option Int × Option Int) : List (List DpRow) :=
  match db.range (decide (table ∈ secondTables)) dataid, period with
  | some (first, last), (some start, some stop) =>
    if start ≤ stop then fetchedChunks db.rows dataid (max start first) (min stop last) else []
  | _, _ => []

/-- The chunks of a building: they are fetched once for every view. -/
def buildingChunks (db : DpDatabase) (table : String) (dataid : Int) (period : Option Int × Option Int) : List (List DpRow) :=
  (List.replicate (viewCount db table) (onceChunks db table dataid period)).flatten

/-- A building that can be stored: it is not recorded, or both ends of the period are given and its chunks can be stored. -/
def GoodDbBuilding (localize : Int → Option Int) (db : DpDatabase) (table : String) (dataid : Int) (period : Option Int × Option Int) : Prop :=
  viewCount db table = 0 ∨ db.range (decide (table ∈ secondTables)) dataid = none ∨
    ((period.1.isSome ∧ period.2.isSome) ∧ ∀ rows ∈ onceChunks db table dataid period, GoodDbChunk localize db.header rows)

theorem dbViews_length (db : DpDatabase) (table : String) : (dbViews db table.toList).length = viewCount db table := by
  unfold dbViews viewCount
  rw [List.countP_eq_length_filter]
  congr 2
  funext v
  rw [Bool.eq_iff_iff, hasText_iff, decide_eq_true_iff]

theorem ecoLoop_stored {β : Type} {localize : Int → Option Int} {scale : Rat} {header : List String} {number : Nat} {dataid : Int}
    {body : β → DbState → DbState × Option Err} {f : β → List (List DpRow)} {good : β → Prop} :
    ∀ (l : List β), (∀ x ∈ l, ∀ s, (good x → ∃ s', body x s = (s', none) ∧ StoredChunks localize scale header number dataid (f x) s s') ∧
      (¬ good x → ∃ e, (body x s).2 = some e)) → ∀ s,
    ((∀ x ∈ l, good x) → ∃ s', ecoLoop body l s = (s', none) ∧ StoredChunks localize scale header number dataid (l.flatMap f) s s') ∧
      (¬ (∀ x ∈ l, good x) → ∃ e, (ecoLoop body l s).2 = some e) := by
  intro l
  induction l with
  | nil =>
    intro _ s
    exact ⟨fun _ => ⟨s, rfl, stored_nil _ _ _ _ _ s⟩, fun h => absurd (by simp) h⟩
  | cons x xs ih =>
    intro hb s
    rw [List.forall_mem_cons]
    unfold ecoLoop
    obtain ⟨b1, b2⟩ := hb x List.mem_cons_self s
    by_cases hx : good x
    · obtain ⟨s1, e1, st1⟩ := b1 hx
      rw [e1]
      simp only
      obtain ⟨i1, i2⟩ := ih (fun y hy => hb y (List.mem_cons_of_mem _ hy)) s1
      refine ⟨fun h => ?_, fun h => i2 (fun h' => h ⟨hx, h'⟩)⟩
      obtain ⟨s2, e2, st2⟩ := i1 h.2
      exact ⟨s2, e2, by rw [List.flatMap_cons]; exact stored_append st1 st2⟩
    · refine ⟨fun h => absurd h.1 hx, fun _ => ?_⟩
      obtain ⟨e, he⟩ := b2 hx
      cases hbx : body x s with
      | mk s1 o =>
        rw [hbx] at he
        simp only at he
        subst he
        exact ⟨e, rfl⟩

theorem dbTable_spec (localize : Int → Option Int) (db : DpDatabase) (table : String) (ht : table ∈ dbTables) (number : Nat) (hnum : 1 ≤ number)
    (dataid : Int) (period : Option Int × Option Int) (s : DbState) :
    ((db.range (decide (table ∈ secondTables)) dataid = none ∨
        ((period.1.isSome ∧ period.2.isSome) ∧ ∀ rows ∈ onceChunks db table dataid period, GoodDbChunk localize db.header rows)) →
      ∃ s', dbTable localize db table.toList number dataid period s = (s', none) ∧
        StoredChunks localize (dbScale table) db.header number dataid (onceChunks db table dataid period) s s') ∧
    (¬ (db.range (decide (table ∈ secondTables)) dataid = none ∨
        ((period.1.isSome ∧ period.2.isSome) ∧ ∀ rows ∈ onceChunks db table dataid period, GoodDbChunk localize db.header rows)) →
      ∃ e, (dbTable localize db table.toList number dataid period s).2 = some e) := by
  have hsec : findsInside "_1s".toList table.toList = decide (table ∈ secondTables) := by
    rw [Bool.eq_iff_iff, (realPower_text table ht).2, decide_eq_true_iff]
  unfold dbTable onceChunks
  rw [hsec]
  cases hr : db.range (decide (table ∈ secondTables)) dataid with
  | none =>
    simp only
    exact ⟨fun _ => ⟨s, rfl, stored_nil _ _ _ _ _ s⟩, fun h => absurd (Or.inl trivial) h⟩
  | some fl =>
    obtain ⟨first, last⟩ := fl
    obtain ⟨p1, p2⟩ := period
    cases p1 with
    | none =>
      simp only
      refine ⟨fun h => ?_, fun _ => ⟨_, rfl⟩⟩
      rcases h with h | h
      · cases h
      · cases h.1.1
    | some start =>
      cases p2 with
      | none =>
        simp only
        refine ⟨fun h => ?_, fun _ => ⟨_, rfl⟩⟩
        rcases h with h | h
        · cases h
        · cases h.1.2
      | some stop =>
        simp only
        by_cases hle : start ≤ stop
        · rw [if_neg (show ¬ start > stop by omega), if_pos hle, ← dbWindows_chunks]
          have := ecoLoop_stored (localize := localize) (scale := dbScale table) (header := db.header) (number := number) (dataid := dataid)
            (body := fun w s => dbToHdf localize table.toList db.header number dataid (dbQuery db.rows dataid w.1 w.2) s)
            (f := fun w => [dbQuery db.rows dataid w.1 w.2]) (good := fun w => GoodDbChunk localize db.header (dbQuery db.rows dataid w.1 w.2))
            (dbWindows (min stop last) ((min stop last - max start first) / dbChunkSize + 1).toNat (max start first))
            (fun w _ s => dbToHdf_spec localize table ht db.header number hnum dataid _ s) s
          have hflat : ∀ l : List (Int × Int), l.flatMap (fun w => [dbQuery db.rows dataid w.1 w.2]) = l.map (fun w => dbQuery db.rows dataid w.1 w.2) :=
            fun l => by induction l <;> simp_all
          rw [hflat] at this
          have hall : ∀ l : List (Int × Int), (∀ rows ∈ l.map (fun w => dbQuery db.rows dataid w.1 w.2), GoodDbChunk localize db.header rows) ↔
              ∀ w ∈ l, GoodDbChunk localize db.header (dbQuery db.rows dataid w.1 w.2) := fun l => List.forall_mem_map
          refine ⟨fun h => ?_, fun h => ?_⟩
          · rcases h with h | h
            · cases h
            · exact this.1 ((hall _).1 h.2)
          · refine this.2 (fun hc => h (Or.inr ⟨⟨rfl, rfl⟩, (hall _).2 hc⟩))
        · rw [if_pos (show start > stop by omega), if_neg hle]
          exact ⟨fun _ => ⟨s, rfl, stored_nil _ _ _ _ _ s⟩, fun h => absurd (Or.inr ⟨⟨rfl, rfl⟩, by simp⟩) h⟩

theorem flatMap_const {β γ : Type} (l : List β) (c : List γ) : l.flatMap (fun _ => c) = (List.replicate l.length c).flatten := by
  induction l with
  | nil => rfl
  | cons x xs ih => rw [List.flatMap_cons, ih, List.length_cons, List.replicate_succ, List.flatten_cons]

theorem dbBuilding_spec (localize : Int → Option Int) (db : DpDatabase) (table : String) (ht : table ∈ dbTables) (number : Nat) (hnum : 1 ≤ number)
    (dataid : Int) (period : Option Int × Option Int) (s : DbState) :
    (GoodDbBuilding localize db table dataid period →
      ∃ s', ecoLoop (fun _ s => dbTable localize db table.toList number dataid period s) (dbViews db table.toList) s = (s', none) ∧
        StoredChunks localize (dbScale table) db.header number dataid (buildingChunks db table dataid period) s s') ∧
    (¬ GoodDbBuilding localize db table dataid period →
      ∃ e, (ecoLoop (fun _ s => dbTable localize db table.toList number dataid period s) (dbViews db table.toList) s).2 = some e) := by
  have := ecoLoop_stored (localize := localize) (scale := dbScale table) (header := db.header) (number := number) (dataid := dataid)
    (body := fun _ s => dbTable localize db table.toList number dataid period s)
    (f := fun _ => onceChunks db table dataid period)
    (good := fun _ => db.range (decide (table ∈ secondTables)) dataid = none ∨
        ((period.1.isSome ∧ period.2.isSome) ∧ ∀ rows ∈ onceChunks db table dataid period, GoodDbChunk localize db.header rows))
    (dbViews db table.toList) (fun _ _ s => dbTable_spec localize db table ht number hnum dataid period s) s
  rw [flatMap_const, dbViews_length] at this
  have hiff : GoodDbBuilding localize db table dataid period ↔ ∀ x ∈ dbViews db table.toList,
      db.range (decide (table ∈ secondTables)) dataid = none ∨
        ((period.1.isSome ∧ period.2.isSome) ∧ ∀ rows ∈ onceChunks db table dataid period, GoodDbChunk localize db.header rows) := by
    unfold GoodDbBuilding
    rw [← dbViews_length]
    cases hv : dbViews db table.toList with
    | nil => simp
    | cons v vs =>
      constructor
      · rintro (h | h)
        · cases h
        · exact fun _ _ => h
      · intro h
        exact Or.inr (h v List.mem_cons_self)
  rw [hiff]
  exact this

/-! ### The download -/

/-- What the buildings change; `num` are their numbers. -/
structure StoredBuildings (localize : Int → Option Int) (scale : Rat) (header : List String) (num : Int → Nat)
    (chunks : Int → List (List DpRow)) (bs : List Int) (s s' : DbState) : Prop where
  tables : ∀ b ∈ bs, ∀ j, s'.store (meterKey (num b) (j + 1)) = addParts localize scale header (s.store (meterKey (num b) (j + 1))) j (chunks b)
  others : ∀ k, (∀ b ∈ bs, ∀ j, k ≠ meterKey (num b) (j + 1)) → s'.store k = s.store k
  last : ∀ b ∈ bs, ∀ rows, (chunks b).getLast? = some rows → ∃ m, s'.yaml.lookup (num b) = some m ∧ DescribesFeeds (num b) b (feedsOf header rows) m
  yaml : ∀ x, (∀ b ∈ bs, num b = x → chunks b = []) → s'.yaml.lookup x = s.yaml.lookup x

theorem dbLoop_spec {localize : Int → Option Int} {scale : Rat} {header : List String} {num : Int → Nat} {chunks : Int → List (List DpRow)}
    {body : Int → DbState → DbState × Option Err} {good : Int → Prop} (hpos : ∀ b, 1 ≤ num b) : ∀ (bs : List Int), bs.Nodup →
    (∀ a ∈ bs, ∀ b ∈ bs, num a = num b → a = b) →
    (∀ b ∈ bs, ∀ s, (good b → ∃ s', body b s = (s', none) ∧ StoredChunks localize scale header (num b) b (chunks b) s s') ∧
      (¬ good b → ∃ e, (body b s).2 = some e)) → ∀ s,
    ((∀ b ∈ bs, good b) → ∃ s', ecoLoop body bs s = (s', none) ∧ StoredBuildings localize scale header num chunks bs s s') ∧
      (¬ (∀ b ∈ bs, good b) → ∃ e, (ecoLoop body bs s).2 = some e) := by
  intro bs
  induction bs with
  | nil =>
    intro _ _ _ s
    exact ⟨fun _ => ⟨s, rfl, by simp, fun _ _ => rfl, by simp, fun _ _ => rfl⟩, fun h => absurd (by simp) h⟩
  | cons x xs ih =>
    intro hnd hinj hb s
    rw [List.nodup_cons] at hnd
    rw [List.forall_mem_cons]
    unfold ecoLoop
    obtain ⟨b1, b2⟩ := hb x List.mem_cons_self s
    by_cases hx : good x
    · obtain ⟨s1, e1, st1⟩ := b1 hx
      rw [e1]
      simp only
      obtain ⟨i1, i2⟩ := ih hnd.2 (fun a ha b hb => hinj a (List.mem_cons_of_mem _ ha) b (List.mem_cons_of_mem _ hb))
        (fun y hy => hb y (List.mem_cons_of_mem _ hy)) s1
      refine ⟨fun h => ?_, fun h => i2 (fun h' => h ⟨hx, h'⟩)⟩
      obtain ⟨s2, e2, st2⟩ := i1 h.2
      have hne : ∀ b ∈ xs, num b ≠ num x := by
        intro b hbm he
        have := hinj b (List.mem_cons_of_mem _ hbm) x List.mem_cons_self he
        exact hnd.1 (this ▸ hbm)
      refine ⟨s2, e2, ?_, ?_, ?_, ?_⟩
      · intro b hbm j
        rcases List.mem_cons.1 hbm with rfl | hbm
        · rw [st2.others, st1.tables]
          intro b' hb' j' he
          exact hne b' hb' (meterKey_inj (hpos _) (by omega) (hpos _) (by omega) he).1.symm
        · rw [st2.tables b hbm, st1.others]
          intro j' he
          exact hne b hbm (meterKey_inj (hpos _) (by omega) (hpos _) (by omega) he).1
      · intro k hk
        rw [st2.others k (fun b hbm => hk b (List.mem_cons_of_mem _ hbm)), st1.others k (hk x List.mem_cons_self)]
      · intro b hbm rows hr
        rcases List.mem_cons.1 hbm with rfl | hbm
        · rw [st2.yaml]
          · exact st1.last rows hr
          · intro b' hb' he
            exact absurd he (hne b' hb')
        · exact st2.last b hbm rows hr
      · intro y hy
        rw [st2.yaml y (fun b hbm => hy b (List.mem_cons_of_mem _ hbm))]
        by_cases hyx : y = num x
        · subst hyx
          exact st1.same (hy x List.mem_cons_self rfl)
        · exact st1.yaml y hyx
    · refine ⟨fun h => absurd h.1 hx, fun _ => ?_⟩
      obtain ⟨e, he⟩ := b2 hx
      cases hbx : body x s with
      | mk s1 o =>
        rw [hbx] at he
        simp only at he
        subst he
        exact ⟨e, rfl⟩

/-- C110. What is downloaded. For a known table and distinct buildings, nothing is raised if and only if all buildings can be stored; then the
meter `j + 1` of the `i`-th building of the dict has, chunk after chunk, the feed that is at place `j` among those with readings in the chunk,
nothing else is stored, and the metadata of the building are those of its last chunk. -/
theorem C110_download (localize : Int → Option Int) (db : DpDatabase) (table : String) (ht : table ∈ dbTables)
    (periods : List (Int × Option Int × Option Int)) (hp : periods ≠ []) (hn : (periods.map Prod.fst).Nodup) (old : DbFile) :
    ((downloadDataport localize db table periods old).2 = none ↔ ∀ e ∈ periods, GoodDbBuilding localize db table e.1 e.2) ∧
    ((downloadDataport localize db table periods old).2 = none →
      (∀ i e, periods[i]? = some e → ∀ j, (downloadDataport localize db table periods old).1.store (meterKey (i + 1) (j + 1)) =
        addParts localize (dbScale table) db.header none j (buildingChunks db table e.1 e.2)) ∧
      (∀ k, (∀ i < periods.length, ∀ j, k ≠ meterKey (i + 1) (j + 1)) → (downloadDataport localize db table periods old).1.store k = none) ∧
      ∃ md, (downloadDataport localize db table periods old).1.metadata = some md ∧
        (∀ i e, periods[i]? = some e →
          (∀ rows, (buildingChunks db table e.1 e.2).getLast? = some rows →
            ∃ m, md.lookup (i + 1) = some m ∧ DescribesFeeds (i + 1) e.1 (feedsOf db.header rows) m) ∧
          (buildingChunks db table e.1 e.2 = [] → md.lookup (i + 1) = none)) ∧
        md.lookup 0 = none ∧ ∀ x, periods.length < x → md.lookup x = none) ∧
    ((downloadDataport localize db table periods old).2 ≠ none → (downloadDataport localize db table periods old).1.metadata = none) := by
  have hspec := dbLoop_spec (localize := localize) (scale := dbScale table) (header := db.header)
    (num := fun b => (periods.map Prod.fst).idxOf b + 1)
    (chunks := fun b => buildingChunks db table b ((periods.lookup b).getD (none, none)))
    (body := fun b s => ecoLoop (fun _ s => dbTable localize db table.toList ((periods.map Prod.fst).idxOf b + 1) b
      ((periods.lookup b).getD (none, none)) s) (dbViews db table.toList) s)
    (good := fun b => GoodDbBuilding localize db table b ((periods.lookup b).getD (none, none)))
    (fun b => by omega) (periods.map Prod.fst) hn
    (fun a ha b hb h => by
      have h' : (periods.map Prod.fst).idxOf a = (periods.map Prod.fst).idxOf b := by omega
      exact (List.idxOf_inj ha).1 h')
    (fun b _ s => dbBuilding_spec localize db table ht _ (by omega) b _ s) ⟨fun _ => none, []⟩
  have hget : ∀ i e, periods[i]? = some e → e ∈ periods ∧ (periods.lookup e.1).getD (none, none) = e.2 ∧ (periods.map Prod.fst).idxOf e.1 = i := by
    intro i e he
    have hm := List.mem_of_getElem? he
    refine ⟨hm, ?_, ?_⟩
    · rw [(mem_iff_lookup hn e.1 e.2).1 hm]
      rfl
    · obtain ⟨hi, hv⟩ := List.getElem?_eq_some_iff.1 he
      have hi' : i < (periods.map Prod.fst).length := by rwa [List.length_map]
      have : (periods.map Prod.fst)[i] = e.1 := by rw [List.getElem_map, hv]
      rw [← this]
      exact hn.idxOf_getElem i hi'
  have hgood : (∀ b ∈ periods.map Prod.fst, GoodDbBuilding localize db table b ((periods.lookup b).getD (none, none))) ↔
      ∀ e ∈ periods, GoodDbBuilding localize db table e.1 e.2 := by
    rw [List.forall_mem_map]
    refine forall_congr' (fun e => forall_congr' (fun he => ?_))
    obtain ⟨i, hi⟩ := List.getElem?_of_mem he
    rw [(hget i e hi).2.1]
  rw [hgood] at hspec
  unfold downloadDataport
  rw [if_pos ht]
  unfold dbBuildings
  rw [if_pos hp]
  simp only
  unfold dbLoop
  by_cases hg : ∀ e ∈ periods, GoodDbBuilding localize db table e.1 e.2
  · obtain ⟨s', he, hs⟩ := hspec.1 hg
    rw [he]
    dsimp only
    refine ⟨⟨fun _ => hg, fun _ => rfl⟩, fun _ => ⟨?_, ?_, s'.yaml, rfl, ?_, ?_, ?_⟩, fun h => absurd rfl h⟩
    · intro i e hie j
      obtain ⟨h1, h2, h3⟩ := hget i e hie
      have := hs.tables e.1 (List.mem_map.2 ⟨e, h1, rfl⟩) j
      simp only [h2, h3] at this
      exact this
    · intro k hk
      rw [hs.others]
      intro b hb j
      have hlt := List.idxOf_lt_length_iff.2 hb
      rw [List.length_map] at hlt
      exact hk _ hlt j
    · intro i e hie
      obtain ⟨h1, h2, h3⟩ := hget i e hie
      refine ⟨fun rows hr => ?_, fun hc => ?_⟩
      · have := hs.last e.1 (List.mem_map.2 ⟨e, h1, rfl⟩) rows (by simp only [h2]; exact hr)
        simp only [h3] at this
        exact this
      · rw [hs.yaml]
        · rfl
        · intro b hb hbx
          have hbe : b = e.1 := (List.idxOf_inj hb).1 (by rw [h3]; omega)
          simp only [hbe, h2]
          exact hc
    · rw [hs.yaml]
      · rfl
      · intro b _ h
        omega
    · intro x hx
      rw [hs.yaml]
      · rfl
      · intro b hb h
        have hlt := List.idxOf_lt_length_iff.2 hb
        rw [List.length_map] at hlt
        omega
  · obtain ⟨e, he⟩ := hspec.2 hg
    cases hl : ecoLoop (fun b s => ecoLoop (fun _ s => dbTable localize db table.toList ((periods.map Prod.fst).idxOf b + 1) b
      ((periods.lookup b).getD (none, none)) s) (dbViews db table.toList) s) (periods.map Prod.fst) ⟨fun _ => none, []⟩ with
    | mk s o =>
      rw [hl] at he
      simp only at he
      subst he
      dsimp only
      exact ⟨⟨fun h => (Option.some_ne_none _ h).elim, fun h => absurd h hg⟩, fun h => (Option.some_ne_none _ h).elim, fun _ => rfl⟩

/-- C110. A table that is not known raises `AssertionError`, and the file is as before. -/
theorem C110_unknown_table (localize : Int → Option Int) (db : DpDatabase) (table : String) (ht : table ∉ dbTables)
    (periods : List (Int × Option Int × Option Int)) (old : DbFile) :
    downloadDataport localize db table periods old = (old, some .assertionError) := by
  unfold downloadDataport
  rw [if_neg ht]

/-- C110. The default, all buildings at all times, raises `TypeError` if the table has a building that the metadata of the database
list; the file has been emptied. -/
theorem C110_default_raises (localize : Int → Option Int) (db : DpDatabase) (table : String) (ht : table ∈ dbTables) (old : DbFile)
    (v : Str) (hv : v ∈ db.views) (hin : table.toList <:+: v) (b : Int) (hb : b ∈ db.buildings v)
    (hr : (db.range (decide (table ∈ secondTables)) b).isSome) :
    downloadDataport localize db table [] old = (⟨fun _ => none, none⟩, some .typeError) := by
  have hsec : findsInside "_1s".toList table.toList = decide (table ∈ secondTables) := by
    rw [Bool.eq_iff_iff, (realPower_text table ht).2, decide_eq_true_iff]
  have hvm : v ∈ dbViews db table.toList := by
    unfold dbViews
    rw [List.mem_filter, hasText_iff]
    exact ⟨hv, hin⟩
  have hbody : ∀ b s number, ecoLoop (fun _ s => dbTable localize db table.toList number b (none, none) s) (dbViews db table.toList) s =
      (s, if (db.range (decide (table ∈ secondTables)) b).isSome then some .typeError else none) := by
    intro b s number
    have h1 : ∀ s, dbTable localize db table.toList number b (none, none) s =
        (s, if (db.range (decide (table ∈ secondTables)) b).isSome then some .typeError else none) := by
      intro s
      unfold dbTable
      rw [hsec]
      cases db.range (decide (table ∈ secondTables)) b <;> rfl
    cases hw : dbViews db table.toList with
    | nil => rw [hw] at hvm; cases hvm
    | cons w ws =>
      cases hb : (db.range (decide (table ∈ secondTables)) b).isSome with
      | true =>
        unfold ecoLoop
        rw [h1, hb]
        rfl
      | false =>
        have h2 : ∀ (l : List Str) (s : DbState), ecoLoop (fun _ s => dbTable localize db table.toList number b (none, none) s) l s = (s, none) := by
          intro l
          induction l with
          | nil => intro s; rfl
          | cons x xs ih =>
            intro s
            unfold ecoLoop
            rw [h1, hb]
            exact ih s
        rw [h2]
        rfl
  unfold downloadDataport
  rw [if_pos ht]
  unfold dbBuildings
  rw [if_neg (by simp), if_neg (List.ne_nil_of_mem hvm)]
  dsimp only
  unfold dbLoop
  simp only [List.lookup_nil, Option.getD_none, hbody]
  have hmem : b ∈ ((dbViews db table.toList).flatMap db.buildings).eraseDups.insertionSort (fun a b => a ≤ b) := by
    rw [List.mem_insertionSort, List.mem_eraseDups, List.mem_flatMap]
    exact ⟨v, hvm, hb⟩
  have hloop : ∀ (l : List Int) (s : DbState), b ∈ l →
      ecoLoop (fun b s => (s, if (db.range (decide (table ∈ secondTables)) b).isSome then some Err.typeError else none)) l s = (s, some .typeError) := by
    intro l
    induction l with
    | nil => intro s h; cases h
    | cons x xs ih =>
      intro s h
      unfold ecoLoop
      by_cases hx : (db.range (decide (table ∈ secondTables)) x).isSome
      · rw [if_pos hx]
      · rw [if_neg hx]
        rcases List.mem_cons.1 h with rfl | h
        · exact absurd hr hx
        · exact ih s h
  rw [hloop _ _ hmem]

/-- C110. A period without start or end raises, for a building of the table: the documented `("2013-04-01", None)` is no period. -/
theorem C110_open_period_raises (localize : Int → Option Int) (db : DpDatabase) (table : String) (ht : table ∈ dbTables)
    (periods : List (Int × Option Int × Option Int)) (hn : (periods.map Prod.fst).Nodup) (old : DbFile)
    (v : Str) (hv : v ∈ db.views) (hin : table.toList <:+: v) (b : Int) (period : Option Int × Option Int) (hb : (b, period) ∈ periods)
    (hr : (db.range (decide (table ∈ secondTables)) b).isSome) (ho : period.1 = none ∨ period.2 = none) :
    (downloadDataport localize db table periods old).2 ≠ none := by
  intro h
  have := ((C110_download localize db table ht periods (List.ne_nil_of_mem hb) hn old).1.1 h) _ hb
  rcases this with h0 | h0 | h0
  · unfold viewCount at h0
    rw [List.countP_eq_zero] at h0
    exact h0 v hv (decide_eq_true hin)
  · simp only at h0
    rw [h0] at hr
    cases hr
  · rcases ho with ho | ho
    · have := h0.1.1
      simp only [ho] at this
      cases this
    · have := h0.1.2
      simp only [ho] at this
      cases this

/-- C110 (partial: the feeds of the chunks must be the same, the times whole seconds and the table part of the name of one view only). Then the
meter `j + 1` has the readings of the feed at place `j` and no other, each once, from the start until before the end, in W and in order of time,
and the metadata say so. -/
theorem C110_one_feed_partial (localize : Int → Option Int) (db : DpDatabase) (table : String) (ht : table ∈ dbTables)
    (periods : List (Int × Option Int × Option Int)) (hn : (periods.map Prod.fst).Nodup) (old : DbFile)
    (hok : (downloadDataport localize db table periods old).2 = none) (hv : viewCount db table = 1)
    (hsec : ∀ r ∈ db.rows, wholeSecond r.time = r.time) (i : Nat) (b start stop first last : Int)
    (hi : periods[i]? = some (b, some start, some stop)) (hr : db.range (decide (table ∈ secondTables)) b = some (first, last))
    (hlt : max start first < min stop last) (feeds : List String)
    (hf : ∀ rows ∈ fetchedChunks db.rows b (max start first) (min stop last), feedsOf db.header rows = feeds) :
    (∀ j, (downloadDataport localize db table periods old).1.store (meterKey (i + 1) (j + 1)) =
      (feeds[j]?).map (fun c => ⟨[("power", "active")], feedRows localize (dbScale table) c ((inOrder db.rows).filter (fun r =>
        decide (r.dataid = b ∧ wholeSecond (max start first) ≤ r.time ∧ r.time < wholeSecond (min stop last))))⟩)) ∧
    ∃ md m, (downloadDataport localize db table periods old).1.metadata = some md ∧ md.lookup (i + 1) = some m ∧
      DescribesFeeds (i + 1) b feeds m := by
  obtain ⟨_, h2, _⟩ := C110_download localize db table ht periods (List.ne_nil_of_mem (List.mem_of_getElem? hi)) hn old
  obtain ⟨t1, _, md, t2, t3, _⟩ := h2 hok
  have hle : start ≤ stop := by omega
  have hch : buildingChunks db table b (some start, some stop) = fetchedChunks db.rows b (max start first) (min stop last) := by
    unfold buildingChunks onceChunks
    rw [hv, hr]
    simp only [List.replicate_one, List.flatten_singleton]
    rw [if_pos hle]
  have hne : fetchedChunks db.rows b (max start first) (min stop last) ≠ [] := by
    unfold fetchedChunks
    rw [ne_eq, List.map_eq_nil_iff, List.range_eq_nil]
    unfold tenDays
    omega
  refine ⟨fun j => ?_, ?_⟩
  · rw [t1 i _ hi j, hch, ← C110_coverage db.rows hsec b _ _ hlt]
    unfold addParts
    by_cases hj : j < feeds.length
    · obtain ⟨rows, hrows⟩ := List.exists_mem_of_ne_nil _ hne
      rw [if_pos ⟨rows, hrows, by rw [hf rows hrows]; exact hj⟩, List.getElem?_eq_getElem hj, Option.map_some, Option.elim_none, List.nil_append]
      congr 2
      generalize fetchedChunks db.rows b (max start first) (min stop last) = chunks at hf
      clear hne hrows hch
      induction chunks with
      | nil => rfl
      | cons x xs ih =>
        rw [List.flatMap_cons, ih (fun rows h => hf rows (List.mem_cons_of_mem _ h)), List.flatten_cons]
        unfold chunkPart
        rw [hf x List.mem_cons_self, List.getElem?_eq_getElem hj, Option.elim_some]
        unfold feedRows
        rw [List.filterMap_append]
    · rw [if_neg, List.getElem?_eq_none (by omega)]
      · rfl
      · rintro ⟨rows, hrows, h⟩
        rw [hf rows hrows] at h
        exact hj h
  · obtain ⟨rows, hrows⟩ := Option.isSome_iff_exists.1 (List.getLast?_isSome.2 hne)
    obtain ⟨m, m1, m2⟩ := (t3 i _ hi).1 rows (by rw [hch]; exact hrows)
    refine ⟨md, m, t2, m1, ?_⟩
    rw [hf rows (List.mem_of_getLast? hrows)] at m2
    exact m2

/-- C110. The feeds that are ignored are those without a type of appliance. -/
theorem C110_ignored (c : String) : c ∈ feedIgnore ↔ (c, none) ∈ feedMapping :=
  ⟨feed_types.1 c, fun h => feed_types.2 _ h rfl⟩

/-- What the feeds of the database stand for: for every type of appliance the names of its feeds without their number, and how many there are. -/
def dbFamilies : List (String × List (String × Nat)) :=
  [("air conditioner", [("air", 3), ("airwindowunit", 1)]),
    ("appliance", [("aquarium", 1), ("icemaker", 1), ("pump", 1), ("sprinkler", 1), ("venthood", 1), ("winecooler", 1)]),
    ("sockets", [("bathroom", 2), ("bedroom", 5), ("diningroom", 2), ("garage", 2), ("kitchen", 2), ("kitchenapp", 2), ("livingroom", 2), ("office", 1), ("outsidelights_plugs", 2), ("shed", 1), ("utilityroom", 1)]),
    ("electric vehicle", [("car", 1)]), ("washing machine", [("clotheswasher", 1)]), ("washer dryer", [("clotheswasher_dryg", 1)]),
    ("dish washer", [("dishwasher", 1)]), ("waste disposal unit", [("disposal", 1)]), ("spin dryer", [("drye", 1), ("dryg", 1)]),
    ("freezer", [("freezer", 1)]), ("electric furnace", [("furnace", 2)]), ("electric space heater", [("heater", 3), ("housefan", 1)]),
    ("electric hot tub heater", [("jacuzzi", 1)]), ("light", [("lights_plugs", 6), ("poollight", 1)]),
    ("microwave", [("microwave", 1)]), ("oven", [("oven", 2)]), ("electric swimming pool heater", [("pool", 2), ("poolpump", 1)]),
    ("stove", [("range", 1)]), ("fridge", [("refrigerator", 2)]), ("security alarm", [("security", 1)]),
    ("electric water heating appliance", [("waterheater", 2)])]

/-- The feed `c` is for an appliance of the type `type`. -/
def IsDbFeed (c type : String) : Prop :=
  ∃ f ∈ dbFamilies, f.1 = type ∧ ∃ g ∈ f.2, ∃ i < g.2, c = g.1 ++ String.ofList (formatNat (i + 1))

/-- The feeds with their types, one by one. -/
def dbPairs : List (String × String) :=
  dbFamilies.flatMap (fun f => f.2.flatMap (fun g => (List.range g.2).map (fun i => (g.1 ++ String.ofList (formatNat (i + 1)), f.1))))

theorem isDbFeed_iff (c type : String) : IsDbFeed c type ↔ (c, type) ∈ dbPairs := by
  unfold IsDbFeed dbPairs
  simp only [List.mem_flatMap, List.mem_map, List.mem_range, Prod.mk.injEq]
  constructor
  · rintro ⟨f, hf, ht, g, hg, i, hi, hc⟩
    exact ⟨f, hf, g, hg, i, hi, hc.symm, ht⟩
  · rintro ⟨f, hf, g, hg, i, hi, hc, ht⟩
    exact ⟨f, hf, ht, g, hg, i, hi, hc.symm⟩

/-- C110. The appliances are those of the feeds: a feed has a type of appliance exactly if it is listed for the type. -/
theorem C110_feeds (c type : String) : (c, some type) ∈ feedMapping ↔ IsDbFeed c type := by
  rw [isDbFeed_iff]
  have h1 : ∀ e ∈ feedMapping, ∀ t, e.2 = some t → (e.1, t) ∈ dbPairs := by decide +kernel
  have h2 : ∀ e ∈ dbPairs, (e.1, some e.2) ∈ feedMapping := by decide +kernel
  exact ⟨fun h => h1 _ h type rfl, fun h => h2 _ h⟩

/-- C110. The tables that can be downloaded: five quantities at four resolutions, and that of forty homes. -/
theorem C110_tables (table : String) : table ∈ dbTables ↔ table = "eg_realpower_1s_40homes_dataset" ∨
    ∃ q ∈ ["angle", "apparentpower", "current", "realpower", "thd"], ∃ r ∈ ["15min", "1hr", "1min", "1s"], table = "eg_" ++ q ++ "_" ++ r := by
  have h1 : ∀ table ∈ dbTables, table = "eg_realpower_1s_40homes_dataset" ∨
      ∃ q ∈ ["angle", "apparentpower", "current", "realpower", "thd"], ∃ r ∈ ["15min", "1hr", "1min", "1s"], table = "eg_" ++ q ++ "_" ++ r := by
    decide +kernel
  have h2 : ∀ q ∈ ["angle", "apparentpower", "current", "realpower", "thd"], ∀ r ∈ ["15min", "1hr", "1min", "1s"], "eg_" ++ q ++ "_" ++ r ∈ dbTables := by
    decide +kernel
  constructor
  · exact h1 table
  · rintro (rfl | ⟨q, hq, r, hr, rfl⟩)
    · decide +kernel
    · exact h2 q hq r hr

/-! ### Counterexamples and examples -/

/-- A database with one view of the table of minutes, and a building recorded from 0 to `last` days. -/
def dbExample (views : List String) (last : Int) (rows : List DpRow) : DpDatabase :=
  ⟨views.map String.toList, ["use", "air1", "solar", "oven1"], rows, fun _ => [7], fun _ b => if b = 7 then some (0, last) else none⟩

/-- The days, in nanoseconds. -/
def nsDay : Int := 86400000000000

/-- C110. A meter does not always have the readings of one feed: the air conditioner has no readings in the second chunk, so that the meter 2 has
first those of the air conditioner and then those of the oven, and the metadata know of the oven only. -/
theorem C110_mixed_counterexample :
    ∃ (db : DpDatabase) (periods : List (Int × Option Int × Option Int)) (m : DbMeta),
      (downloadDataport some db "eg_realpower_1min" periods ⟨fun _ => none, none⟩).2 = none ∧
      (downloadDataport some db "eg_realpower_1min" periods ⟨fun _ => none, none⟩).1.store (meterKey 1 2) =
        some ⟨[("power", "active")], [(0, some 2000), (11 * nsDay, some 3000)]⟩ ∧
      (downloadDataport some db "eg_realpower_1min" periods ⟨fun _ => none, none⟩).1.metadata = some [(1, m)] ∧
      m.appliances.map (fun a => (a.originalName, a.meter)) = [("oven1", 2)] :=
  ⟨dbExample ["eg_realpower_1min"] (20 * nsDay) [dpRow 0 7 [("use", 5), ("air1", 2)], dpRow (11 * nsDay) 7 [("use", 6), ("oven1", 3)]],
    [(7, some 0, some (20 * nsDay))], ⟨1, 7, [(1, true), (2, false)], [⟨"oven1", 2, "oven", 1⟩]⟩, by decide +kernel⟩

/-- C110. A last chunk without readings leaves a building without meters in the metadata, though its readings are stored. -/
theorem C110_empty_counterexample :
    ∃ (db : DpDatabase) (periods : List (Int × Option Int × Option Int)),
      (downloadDataport some db "eg_realpower_1min" periods ⟨fun _ => none, none⟩).2 = none ∧
      (downloadDataport some db "eg_realpower_1min" periods ⟨fun _ => none, none⟩).1.store (meterKey 1 1) =
        some ⟨[("power", "active")], [(0, some 5000)]⟩ ∧
      (downloadDataport some db "eg_realpower_1min" periods ⟨fun _ => none, none⟩).1.metadata = some [(1, ⟨1, 7, [], []⟩)] :=
  ⟨dbExample ["eg_realpower_1min"] (20 * nsDay) [dpRow 0 7 [("use", 5)]], [(7, some 0, some (20 * nsDay))], by decide +kernel⟩

/-- C110. The table of seconds is part of the name of the table of forty homes: with both views every reading is stored twice. -/
theorem C110_twice_counterexample :
    ∃ (db : DpDatabase) (periods : List (Int × Option Int × Option Int)),
      db.rows.length = 1 ∧
      (downloadDataport some db "eg_realpower_1s" periods ⟨fun _ => none, none⟩).2 = none ∧
      (downloadDataport some db "eg_realpower_1s" periods ⟨fun _ => none, none⟩).1.store (meterKey 1 1) =
        some ⟨[("power", "active")], [(0, some 5000), (0, some 5000)]⟩ :=
  ⟨dbExample ["eg_realpower_1s", "eg_realpower_1s_40homes_dataset"] nsDay [dpRow 0 7 [("use", 5)]], [(7, some 0, some nsDay)], by decide +kernel⟩

/-- C110. The last reading of a building is not downloaded: the end of what is recorded is the time of the last reading. -/
theorem C110_last_counterexample :
    ∃ (db : DpDatabase) (periods : List (Int × Option Int × Option Int)),
      db.rows.map DpRow.time = [0, 60000000000] ∧ db.range false 7 = some (0, 60000000000) ∧
      (downloadDataport some db "eg_realpower_1min" periods ⟨fun _ => none, none⟩).2 = none ∧
      (downloadDataport some db "eg_realpower_1min" periods ⟨fun _ => none, none⟩).1.store (meterKey 1 1) =
        some ⟨[("power", "active")], [(0, some 5000)]⟩ :=
  ⟨dbExample ["eg_realpower_1min"] 60000000000 [dpRow 0 7 [("use", 5)], dpRow 60000000000 7 [("use", 6)]], [(7, some 0, some nsDay)], by decide +kernel⟩

/-- The readings of two chunks with the same feeds. -/
def dbSteady : DpDatabase := dbExample ["eg_realpower_1min", "eg_realpower_1hr"] (15 * nsDay)
  [dpRow 0 7 [("use", 5), ("air1", 2), ("solar", 1)], dpRow (11 * nsDay) 7 [("use", 6), ("air1", 3)], dpRow 0 8 [("use", 9)]]

example : viewCount dbSteady "eg_realpower_1min" = 1 ∧ (∀ r ∈ dbSteady.rows, wholeSecond r.time = r.time) ∧
    (∀ rows ∈ fetchedChunks dbSteady.rows 7 0 (15 * nsDay), feedsOf dbSteady.header rows = ["use", "air1"]) ∧
    (downloadDataport some dbSteady "eg_realpower_1min" [(8, some 0, some nsDay), (7, some 0, some (15 * nsDay))] ⟨fun _ => none, none⟩).2 = none := by
  decide +kernel

example : (downloadDataport some dbSteady "eg_realpower_1min" [] ⟨fun _ => none, none⟩).2 = some .typeError ∧
    (downloadDataport some dbSteady "eg_realpower_1min" [(7, some 0, none)] ⟨fun _ => none, none⟩).2 = some .typeError ∧
    (downloadDataport some dbSteady "eg_realpower" [(7, some 0, none)] ⟨fun _ => none, none⟩).2 = some .assertionError := by
  decide +kernel

/-- A feed without an entry in `feed_mapping` and a time that does not exist. -/
example : (downloadDataport some { dbSteady with header := ["use", "car2"], rows := [dpRow 0 7 [("car2", 1)]] } "eg_realpower_1min"
      [(7, some 0, some nsDay)] ⟨fun _ => none, none⟩).2 = some .keyError ∧
    (downloadDataport (fun t => if t = 0 then none else some t) dbSteady "eg_realpower_1min" [(7, some 0, some nsDay)] ⟨fun _ => none, none⟩).2 =
      some .exception := by
  decide +kernel

end Nilmtk
