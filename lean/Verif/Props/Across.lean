import Verif.Model.Across
import Verif.Props.LegacyDisag
/-!
C97: disaggregating several buildings with one model.
-/
namespace Nilmtk

/-! ### Specification -/

/-- The type of the first appliance of a meter. -/
def firstType (x : SubMeter) : Option String := x.appliances.head?.map Prod.fst

/-- The meter of a building for a type of appliance: the first whose first appliance is of the type. -/
def houseMeter (house : House) (appliance : String) : Option SubMeter :=
  house.submeters.find? (fun x => decide (firstType x = some appliance))

/-- The chunks of the mains that are long enough. -/
def houseChunks (house : House) (sp : Int) (sections : List TF) : List PowerChunk :=
  (house.load sp sections).out.filter (fun k => decide (100 ≤ k.rows.length))

/-- A building as it should be: all submeters have appliances, instances differ and are not 1, `elec[i]` is the meter with instance
`i`, one of the appliances of the model is there, and the hidden Markov model finds a state for every reading that is there, at
least one in every long chunk. -/
structure HouseReady (m : AcrossModel) (house : House) (sp : Int) (sections : List TF) (states : PowerChunk → List Nat) : Prop where
  appliances : ∀ x ∈ house.submeters, x.appliances ≠ []
  instances : (1 :: house.submeters.map SubMeter.inst).Nodup
  getItem : ∀ x ∈ house.submeters, house.getItem x.inst = .ok x
  good : ∃ g, house.goodSections = .ok g
  known : ∃ e ∈ m.individual, houseMeter house e.1 ≠ none
  states : ∀ k ∈ houseChunks house sp sections, m.predict (k.rows.filterMap Prod.snd) = .ok (states k) ∧ states k ≠ [] ∧
    (states k).length = (k.rows.filterMap Prod.snd).length

/-- And the mains come without an exception, in sections that do not overlap. -/
structure HouseOk (m : AcrossModel) (house : House) (sp : Int) (sections : List TF) (states : PowerChunk → List Nat) : Prop
    extends HouseReady m house sp sections states where
  complete : (house.load sp sections).err = none
  sorted : houseChunks house sp sections ≠ [] → SortedDisjoint ((houseChunks house sp sections).map PowerChunk.frame)

/-! ### Lookups -/

theorem meterInstance_eq (appliance : String) (ms : List SubMeter) (h : ∀ x ∈ ms, x.appliances ≠ []) :
    meterInstance appliance ms = .ok ((ms.find? (fun x => decide (firstType x = some appliance))).map SubMeter.inst) := by
  induction ms with
  | nil => rfl
  | cons m ms ih =>
    obtain ⟨a, as, ha⟩ := List.exists_cons_of_ne_nil (h m List.mem_cons_self)
    simp only [meterInstance, ha, List.find?_cons, firstType, List.head?_cons, Option.map_some, Option.some.injEq]
    by_cases hc : a.1 = appliance
    · simp [hc]
    · simp only [hc, decide_false]
      exact ih (fun x hx => h x (List.mem_cons_of_mem _ hx))

theorem houseMeter_mem {house : House} {a : String} {x : SubMeter} (h : houseMeter house a = some x) :
    x ∈ house.submeters ∧ firstType x = some a := by
  refine ⟨List.mem_of_find?_eq_some h, ?_⟩
  simpa using List.find?_some h

theorem acrossMeters_eq (house : House) (h : ∀ x ∈ house.submeters, x.appliances ≠ [])
    (hg : ∀ x ∈ house.submeters, house.getItem x.inst = .ok x) (as : List String) :
    acrossMeters house as = .ok (as.filterMap (houseMeter house)) := by
  induction as with
  | nil => rfl
  | cons a as ih =>
    have he := meterInstance_eq a house.submeters h
    rw [acrossMeters, he]
    cases hm : houseMeter house a with
    | none =>
      rw [List.filterMap_cons_none hm]
      unfold houseMeter at hm
      rw [hm]
      exact ih
    | some x =>
      have hx := houseMeter_mem hm
      rw [List.filterMap_cons_some hm]
      unfold houseMeter at hm
      rw [hm]
      simp only [Option.map_some, hg x hx.1, ih]

/-- Different types have different meters. -/
theorem houseMeter_inj {house : House} {a b : String} {x : SubMeter} (h1 : houseMeter house a = some x)
    (h2 : houseMeter house b = some x) : a = b := by
  have h3 := (houseMeter_mem h1).2
  rw [(houseMeter_mem h2).2] at h3
  simpa using h3.symm

theorem house_inst_inj {house : House} (hi : (1 :: house.submeters.map SubMeter.inst).Nodup) {x y : SubMeter}
    (hx : x ∈ house.submeters) (hy : y ∈ house.submeters) (h : x.inst = y.inst) : x = y :=
  List.inj_on_of_nodup_map (List.nodup_cons.1 hi).2 hx hy h

theorem house_inst_ne {house : House} (hi : (1 :: house.submeters.map SubMeter.inst).Nodup) {x : SubMeter}
    (hx : x ∈ house.submeters) : x.inst ≠ 1 := by
  intro h
  exact (List.nodup_cons.1 hi).1 (h ▸ List.mem_map_of_mem hx)

theorem houseMeters_nodup {house : House} (hi : (1 :: house.submeters.map SubMeter.inst).Nodup) (as : List String)
    (hn : as.Nodup) : (1 :: (as.filterMap (houseMeter house)).map SubMeter.inst).Nodup := by
  rw [List.nodup_cons]
  constructor
  · intro h
    obtain ⟨x, hx, h1⟩ := List.mem_map.1 h
    obtain ⟨a, _, ha⟩ := List.mem_filterMap.1 hx
    exact house_inst_ne hi (houseMeter_mem ha).1 h1
  · induction as with
    | nil => simp
    | cons a as ih =>
      rw [List.nodup_cons] at hn
      cases hm : houseMeter house a with
      | none => rw [List.filterMap_cons_none hm]; exact ih hn.2
      | some x =>
        rw [List.filterMap_cons_some hm, List.map_cons, List.nodup_cons]
        refine ⟨?_, ih hn.2⟩
        intro h
        obtain ⟨y, hy, h1⟩ := List.mem_map.1 h
        obtain ⟨a', ha', hy'⟩ := List.mem_filterMap.1 hy
        have := house_inst_inj hi (houseMeter_mem hy').1 (houseMeter_mem hm).1 h1
        subst this
        exact hn.1 (houseMeter_inj hm hy' ▸ ha')

/-! ### Estimates -/

/-- The estimates of one chunk: for every appliance of the model with a meter in the building. -/
def houseEstimates (m : AcrossModel) (house : House) (states : PowerChunk → List Nat) (k : PowerChunk) :
    List (Nat × List (Row (Option Rat))) :=
  m.individual.zipIdx.filterMap (fun e =>
    (houseMeter house e.1.1).map (fun x => (x.inst, fhmmRows (m.individual.map Prod.snd) states e.2 k)))

theorem known_values (rows : List (Row (Option Rat))) :
    (rows.filterMap (fun r => r.2.map (fun x => (r.1, x)))).map Prod.snd = rows.filterMap Prod.snd := by
  induction rows with
  | nil => rfl
  | cons r rows ih =>
    obtain ⟨t, _ | x⟩ := r
    · simpa using ih
    · simpa using ih

theorem acrossEstimates_eq (m : AcrossModel) (house : House) (states : PowerChunk → List Nat)
    (h : ∀ x ∈ house.submeters, x.appliances ≠ []) (k : PowerChunk)
    (hp : m.predict (k.rows.filterMap Prod.snd) = .ok (states k)) :
    acrossEstimates m.predict m.individual house k = .ok (houseEstimates m house states k) := by
  unfold acrossEstimates houseEstimates
  simp only [known_values, hp, known_times]
  congr 1
  apply List.filterMap_congr
  intro e _
  rw [meterInstance_eq e.1.1 house.submeters h]
  unfold houseMeter
  cases house.submeters.find? (fun x => decide (firstType x = some e.1.1)) <;> rfl

theorem pick_found {β : Type} (G : β → Option (Nat × List (Row (Option Rat)))) (inst : Nat) (r : List (Row (Option Rat))) (p : β) :
    ∀ l : List β, l.Nodup → p ∈ l → G p = some (inst, r) → (∀ q ∈ l, q ≠ p → ∀ e, G q = some e → e.1 ≠ inst) →
    (l.filterMap G).flatMap (fun e => if e.1 = inst then e.2 else []) = r := by
  have hnone : ∀ l : List β, (∀ q ∈ l, ∀ e, G q = some e → e.1 ≠ inst) →
      (l.filterMap G).flatMap (fun e => if e.1 = inst then e.2 else []) = [] := by
    intro l hl
    rw [List.flatMap_eq_nil_iff]
    intro e he
    obtain ⟨q, hq, hqe⟩ := List.mem_filterMap.1 he
    rw [if_neg (hl q hq e hqe)]
  intro l
  induction l with
  | nil => intro _ h; cases h
  | cons q l ih =>
    intro hn hp hG hu
    rw [List.nodup_cons] at hn
    rcases List.mem_cons.1 hp with rfl | hp'
    · rw [List.filterMap_cons_some hG, List.flatMap_cons, if_pos rfl,
        hnone l (fun q hq e he => hu q (List.mem_cons_of_mem _ hq) (by rintro rfl; exact hn.1 hq) e he), List.append_nil]
    · have hq : q ≠ p := by rintro rfl; exact hn.1 hp'
      have ih' := ih hn.2 hp' hG (fun q hq => hu q (List.mem_cons_of_mem _ hq))
      cases hGq : G q with
      | none => rw [List.filterMap_cons_none hGq]; exact ih'
      | some e =>
        rw [List.filterMap_cons_some hGq, List.flatMap_cons, if_neg (hu q List.mem_cons_self hq e hGq), List.nil_append]
        exact ih'

theorem zipIdx_nodup {β : Type} (l : List β) : l.zipIdx.Nodup := by
  refine List.Nodup.of_map Prod.snd ?_
  rw [List.zipIdx_map_snd]
  exact List.nodup_range'

/-- What one chunk adds to the table of the meter of appliance number `i`. -/
theorem houseEstimates_pick (m : AcrossModel) (hn : (m.individual.map Prod.fst).Nodup) (house : House)
    (hi : (1 :: house.submeters.map SubMeter.inst).Nodup) (states : PowerChunk → List Nat) (k : PowerChunk) (i : Nat)
    (e : String × List Int) (he : m.individual[i]? = some e) (x : SubMeter) (hx : houseMeter house e.1 = some x) :
    addedRows x.inst k (houseEstimates m house states k) = fhmmRows (m.individual.map Prod.snd) states i k := by
  have h1 := house_inst_ne hi (houseMeter_mem hx).1
  rw [addedRows, if_neg h1, List.append_nil]
  refine pick_found _ x.inst _ (e, i) _ (zipIdx_nodup _) ?_ ?_ ?_
  · rw [List.mem_zipIdx_iff_getElem?]
    exact he
  · simp [hx]
  · rintro ⟨e', j⟩ hq hne ⟨i', r⟩ hr hc
    rw [List.mem_zipIdx_iff_getElem?] at hq
    simp only [Option.map_eq_some_iff, Prod.mk.injEq] at hr
    obtain ⟨y, hy, rfl, _⟩ := hr
    have hxy := house_inst_inj hi (houseMeter_mem hy).1 (houseMeter_mem hx).1 hc
    subst hxy
    have hname := houseMeter_inj hy hx
    apply hne
    have hj : j < m.individual.length := (List.getElem?_eq_some_iff.1 hq).1
    have hii : i < m.individual.length := (List.getElem?_eq_some_iff.1 he).1
    have : j = i := by
      refine (List.Nodup.getElem_inj_iff hn (hi := by simpa using hj) (hj := by simpa using hii)).1 ?_
      rw [List.getElem_map, List.getElem_map]
      rw [(List.getElem?_eq_some_iff.1 hq).2, (List.getElem?_eq_some_iff.1 he).2]
      exact hname
    subst this
    rw [he] at hq
    cases hq
    rfl

theorem houseEstimates_mains (m : AcrossModel) (house : House)
    (hi : (1 :: house.submeters.map SubMeter.inst).Nodup) (states : PowerChunk → List Nat) (k : PowerChunk) :
    addedRows 1 k (houseEstimates m house states k) = k.rows := by
  rw [addedRows, if_pos rfl]
  have : (houseEstimates m house states k).flatMap (fun e => if e.1 = 1 then e.2 else []) = [] := by
    rw [List.flatMap_eq_nil_iff]
    intro e he
    obtain ⟨q, _, hq⟩ := List.mem_filterMap.1 he
    rw [Option.map_eq_some_iff] at hq
    obtain ⟨x, hx, rfl⟩ := hq
    rw [if_neg (house_inst_ne hi (houseMeter_mem hx).1)]
  rw [this, List.nil_append]

theorem houseEstimates_insts (m : AcrossModel) (house : House) (states : PowerChunk → List Nat) (k : PowerChunk) :
    ∀ e ∈ houseEstimates m house states k, ∃ x ∈ house.submeters, x.inst = e.1 := by
  intro e he
  obtain ⟨q, _, hq⟩ := List.mem_filterMap.1 he
  rw [Option.map_eq_some_iff] at hq
  obtain ⟨x, hx, rfl⟩ := hq
  exact ⟨x, (houseMeter_mem hx).1, rfl⟩

/-! ### One building -/

/-- Whether `cols` is bound before does not matter if every long chunk has estimates. -/
theorem acrossChunks_eq (m : AcrossModel) (sp : Int) (house : House) (meters : List SubMeter) (mains : Gen PowerChunk)
    (store : DisagStore) (cols : Bool) (ess : List (List (Nat × List (Row (Option Rat)))))
    (he : Estimated (fun (u : Unit) k => (u, acrossEstimates m.predict m.individual house k)) () (longChunks 100 mains.out) ess ())
    (hne : ∀ es ∈ ess, ∃ e ∈ es, e.2 ≠ []) :
    ∃ cols', acrossChunks m sp house meters mains (store, cols) =
      (((disagWrite true 100 "FHMM" sp house.building meters
          (fun (u : Unit) k => (u, acrossEstimates m.predict m.individual house k)) mains () store).1.2, cols'),
        (disagWrite true 100 "FHMM" sp house.building meters
          (fun (u : Unit) k => (u, acrossEstimates m.predict m.individual house k)) mains () store).2) := by
  obtain ⟨s1, a1, a2, a3, a4, a5⟩ := disagLoop_spec true 100 house.building _ mains.out () () ess
    ⟨store, [], none, cols, false⟩ he hne
  obtain ⟨s2, b1, b2, b3, b4, b5⟩ := disagLoop_spec true 100 house.building _ mains.out () () ess
    ⟨store, [], none, false, false⟩ he hne
  have e1 : s1.store = s2.store := by rw [a2, b2]
  have e2 : s1.timeframes = s2.timeframes := by rw [a3, b3]
  have e3 : s1.measurement = s2.measurement := by rw [a4, b4]
  have e4 : s1.available = s2.available := by rw [a5, b5]
  refine ⟨s1.cols, ?_⟩
  unfold acrossChunks disagWrite
  simp only [a1, b1, e1, e2, e3, e4]
  cases mains.err with
  | some e => rfl
  | none =>
    by_cases hav : s2.available = false
    · simp only [hav, if_true]
    · simp only [if_neg hav]
      cases s2.measurement <;> rfl

/-- What a building has after the call, compared with before. -/
structure HouseDone (m : AcrossModel) (house : House) (sp : Int) (sections : List TF) (states : PowerChunk → List Nat)
    (store store' : DisagStore) : Prop where
  rows : ∀ (i : Nat) e x, m.individual[i]? = some e → houseMeter house e.1 = some x →
    outRows store' (outMeterKey house.building x.inst) = outRows store (outMeterKey house.building x.inst) ++
      ((houseChunks house sp sections).map (fhmmRows (m.individual.map Prod.snd) states i)).flatten
  mains : outRows store' (outMeterKey house.building 1) = outRows store (outMeterKey house.building 1) ++
    ((houseChunks house sp sections).map PowerChunk.rows).flatten
  metadata : ∀ first last, (houseChunks house sp sections).head? = some first →
    (houseChunks house sp sections).getLast? = some last →
    hdfGetMetadata store' (outBuilding house.building) =
      .ok (buildingMd "FHMM" house.building (first.frame.start, last.frame.stop) (m.appliances.filterMap (houseMeter house)))

/-- A key that the building does not write to. -/
def NotWritten (house : House) (key : Str) : Prop :=
  hdfComponents key ≠ [] ∧ hdfComponents key ≠ hdfComponents (outBuilding house.building) ∧
  ∀ i, i = 1 ∨ i ∈ house.submeters.map SubMeter.inst → ¬ hdfComponents key <+: hdfComponents (outMeterKey house.building i)

/-- The writing of one building, however its mains end. -/
theorem house_rows (m : AcrossModel) (hn : (m.individual.map Prod.fst).Nodup) (sp : Int) (house : House) (sections : List TF)
    (states : PowerChunk → List Nat) (h : HouseReady m house sp sections states) (store : DisagStore) (cols : Bool) :
    ∃ store' cols' r, acrossChunks m sp house (m.appliances.filterMap (houseMeter house)) (house.load sp sections) (store, cols)
        = ((store', cols'), r) ∧
      (∀ (i : Nat) e x, m.individual[i]? = some e → houseMeter house e.1 = some x →
        outRows store' (outMeterKey house.building x.inst) = outRows store (outMeterKey house.building x.inst) ++
          ((houseChunks house sp sections).map (fhmmRows (m.individual.map Prod.snd) states i)).flatten) ∧
      outRows store' (outMeterKey house.building 1) = outRows store (outMeterKey house.building 1) ++
        ((houseChunks house sp sections).map PowerChunk.rows).flatten ∧
      (∀ key, NotWritten house key → store'.seen (hdfComponents key) = store.seen (hdfComponents key)) ∧
      (∀ key, hdfComponents key ≠ [] → hdfComponents key ≠ hdfComponents (outBuilding house.building) →
        hdfGetMetadata store' key = hdfGetMetadata store key) ∧
      (∀ e, (house.load sp sections).err = some e → r = .error e ∧ ∀ key, hdfGetMetadata store' key = hdfGetMetadata store key) ∧
      ((house.load sp sections).err = none → houseChunks house sp sections = [] → r = .ok ()) ∧
      ((house.load sp sections).err = none → ∀ k ks, houseChunks house sp sections = ks ++ [k] → (store', r) =
        saveDisagMetadata (hdfRun (chunkCalls house.building (houseChunks house sp sections)
            ((houseChunks house sp sections).map (houseEstimates m house states))) store) "FHMM" sp k.measurement
          ((houseChunks house sp sections).map PowerChunk.frame) house.building
          (.supervised (m.appliances.filterMap (houseMeter house)))) := by
  have hl' : longChunks 100 (house.load sp sections).out = houseChunks house sp sections := rfl
  have hE : ∀ ks : List PowerChunk, (∀ k ∈ ks, k ∈ houseChunks house sp sections) →
      Estimated (fun (u : Unit) k => (u, acrossEstimates m.predict m.individual house k)) () ks
        (ks.map (houseEstimates m house states)) () := by
    intro ks
    induction ks with
    | nil => intro _; exact .nil ()
    | cons k ks ih =>
      intro hk
      refine .cons (c' := ()) ?_ (ih (fun x hx => hk x (List.mem_cons_of_mem _ hx)))
      rw [acrossEstimates_eq m house states h.appliances k (h.states k (hk k List.mem_cons_self)).1]
  have hlen : ∀ k : PowerChunk, (k.rows.filter (fun r => r.2.isSome)).length = (k.rows.filterMap Prod.snd).length := by
    intro k
    have := congrArg List.length (known_times k.rows)
    rw [List.length_map, List.length_map] at this
    rw [← known_values, List.length_map, this]
  have hrows : ∀ es ∈ (houseChunks house sp sections).map (houseEstimates m house states), ∃ e ∈ es, e.2 ≠ [] := by
    intro es hes
    obtain ⟨k, hk, rfl⟩ := List.mem_map.1 hes
    obtain ⟨e, hem, hx⟩ := h.known
    obtain ⟨x, hx⟩ := Option.ne_none_iff_exists'.1 hx
    obtain ⟨i, hi⟩ := List.mem_iff_getElem?.1 hem
    refine ⟨(x.inst, fhmmRows (m.individual.map Prod.snd) states i k), ?_, ?_⟩
    · refine List.mem_filterMap.2 ⟨(e, i), ?_, by simp [hx]⟩
      rw [List.mem_zipIdx_iff_getElem?]
      exact hi
    · intro hc
      have h2 := congrArg List.length hc
      have hs := h.states k hk
      simp only [fhmmRows, List.length_zip, List.length_map, List.length_nil, hlen, hs.2.2, Nat.min_self] at h2
      exact hs.2.1 (List.length_eq_zero_iff.1 (hs.2.2.trans h2))
  have hE' := hE _ (fun _ hk => hk)
  obtain ⟨cols', hac⟩ := acrossChunks_eq m sp house (m.appliances.filterMap (houseMeter house)) (house.load sp sections) store cols
    _ hE' hrows
  obtain ⟨w1, w2, w3, w4, w5⟩ := disagWrite_rows true 100 house.building "FHMM" sp (m.appliances.filterMap (houseMeter house))
    (fun (u : Unit) k => (u, acrossEstimates m.predict m.individual house k)) (house.load sp sections) () () store _ hE' hrows
  obtain ⟨mds, _, _, _, d4, d5, d6⟩ := disagWrite_run true 100 house.building "FHMM" sp (m.appliances.filterMap (houseMeter house))
    (fun (u : Unit) k => (u, acrossEstimates m.predict m.individual house k)) (house.load sp sections) () () store _ hE' hrows
  rw [hac]
  rw [hl'] at w1 d5 d6
  have hzip : ∀ i, (List.zipWith (addedRows i) (houseChunks house sp sections)
      ((houseChunks house sp sections).map (houseEstimates m house states))) =
      (houseChunks house sp sections).map (fun k => addedRows i k (houseEstimates m house states k)) := by
    intro i
    rw [List.zipWith_map_right, List.zipWith_self]
  have hR : ∀ (i : Nat) e x, m.individual[i]? = some e → houseMeter house e.1 = some x →
      (List.zipWith (addedRows x.inst) (houseChunks house sp sections)
      ((houseChunks house sp sections).map (houseEstimates m house states))).flatten =
      ((houseChunks house sp sections).map (fhmmRows (m.individual.map Prod.snd) states i)).flatten := by
    intro i e x he hx
    rw [hzip]
    congr 1
    exact List.map_congr_left (fun k _ => houseEstimates_pick m hn house h.instances states k i e he x hx)
  have hM : (List.zipWith (addedRows 1) (houseChunks house sp sections)
      ((houseChunks house sp sections).map (houseEstimates m house states))).flatten =
      ((houseChunks house sp sections).map PowerChunk.rows).flatten := by
    rw [hzip]
    congr 1
    exact List.map_congr_left (fun k _ => houseEstimates_mains m house h.instances states k)
  have hseen : ∀ key, NotWritten house key →
      (disagWrite true 100 "FHMM" sp house.building (m.appliances.filterMap (houseMeter house))
        (fun (u : Unit) k => (u, acrossEstimates m.predict m.individual house k)) (house.load sp sections) () store).1.2.seen
          (hdfComponents key) = store.seen (hdfComponents key) := by
    rintro key ⟨k1, k2, k3⟩
    refine w2 key k1 k2 (fun i hi => k3 i ?_)
    rcases hi with rfl | ⟨es, hes, e, he, rfl⟩
    · exact Or.inl rfl
    · obtain ⟨k, _, rfl⟩ := List.mem_map.1 hes
      obtain ⟨x, hx, hxe⟩ := houseEstimates_insts m house states k e he
      exact Or.inr (List.mem_map.2 ⟨x, hx, hxe⟩)
  refine ⟨_, _, _, rfl, ?_, ?_, hseen, w3, ?_, d5, d6⟩
  · intro i e x he hx
    rw [w1, hR i e x he hx]
  · rw [w1, hM]
  · intro e he
    exact ⟨d4 e he, w4 (Or.inl (by rw [he]; simp))⟩

theorem house_step (m : AcrossModel) (hn : (m.individual.map Prod.fst).Nodup) (ha : m.appliances.Nodup) (sp : Int) (hsp : 0 ≤ sp)
    (house : House) (sections : List TF) (states : PowerChunk → List Nat) (h : HouseOk m house sp sections states)
    (store : DisagStore) (cols : Bool) :
    ∃ store' cols', acrossChunks m sp house (m.appliances.filterMap (houseMeter house)) (house.load sp sections) (store, cols)
        = ((store', cols'), .ok ()) ∧
      HouseDone m house sp sections states store store' ∧
      (∀ key, NotWritten house key → store'.seen (hdfComponents key) = store.seen (hdfComponents key)) ∧
      (∀ key, hdfComponents key ≠ [] → hdfComponents key ≠ hdfComponents (outBuilding house.building) →
        hdfGetMetadata store' key = hdfGetMetadata store key) := by
  have hl' : longChunks 100 (house.load sp sections).out = houseChunks house sp sections := rfl
  obtain ⟨st0, cols', r, hac, wR, wM, hseen, w3, _, d5, d6⟩ := house_rows m hn sp house sections states h.toHouseReady store cols
  rw [hac]
  cases hch : houseChunks house sp sections with
  | nil =>
    refine ⟨_, _, by rw [d5 h.complete hch], ⟨?_, ?_, ?_⟩, hseen, w3⟩
    · intro i e x he hx
      rw [wR i e x he hx]
    · rw [wM]
    · intro first last hf
      rw [hch] at hf
      cases hf
  | cons k rest =>
    obtain ⟨ks, last, hlast⟩ : ∃ ks last, houseChunks house sp sections = ks ++ [last] := by
      rcases List.eq_nil_or_concat (houseChunks house sp sections) with h0 | ⟨ks, l, h0⟩
      · rw [hch] at h0; cases h0
      · exact ⟨ks, l, by simpa using h0⟩
    have d7 := d6 h.complete last ks hlast
    have hk : 100 ≤ k.rows.length := longChunks_length k (by rw [hl', hch]; exact List.mem_cons_self)
    have hkrows : k.rows ≠ [] := by
      intro hc0
      rw [hc0] at hk
      simp at hk
    have hb : (hdfRun (chunkCalls house.building (houseChunks house sp sections)
        ((houseChunks house sp sections).map (houseEstimates m house states))) store).seen
        (hdfComponents (outBuilding house.building)) ≠ none := by
      rw [hch, List.map_cons]
      exact building_there house.building k rest _ _ hkrows store
    have hsorted := h.sorted (by rw [hch]; simp)
    rw [hch, List.map_cons] at hsorted
    obtain ⟨st, tf, s1, s2, s3, s4, s5, s6⟩ := C95_save _ "FHMM" (by decide) sp hsp last.measurement k.frame
      (rest.map PowerChunk.frame) hsorted house.building (.supervised (m.appliances.filterMap (houseMeter house)))
      (by rintro ms ⟨⟩; exact houseMeters_nodup h.instances _ ha) hb
    have hcons : k.frame :: rest.map PowerChunk.frame = (houseChunks house sp sections).map PowerChunk.frame := by
      rw [hch, List.map_cons]
    have htf : tf = (k.frame.start, last.frame.stop) := by
      rw [s2, hcons, List.getLast?_map, hlast]
      simp
    subst htf
    rw [hcons] at s1
    rw [s1] at d7
    simp only [Prod.mk.injEq] at d7
    obtain ⟨d8, d9⟩ := d7
    refine ⟨st, _, by rw [d8, d9], ⟨?_, ?_, ?_⟩, by rw [← d8]; exact hseen, by rw [← d8]; exact w3⟩
    · intro i e x he hx
      rw [← d8, wR i e x he hx]
    · rw [← d8, wM]
    · intro first last' hf hl''
      rw [hch] at hf
      simp only [List.head?_cons, Option.some.injEq] at hf
      subst hf
      rw [hlast] at hl''
      simp only [List.getLast?_append, List.getLast?_singleton, Option.some_or, Option.some.injEq] at hl''
      subst hl''
      exact s4

/-! ### All buildings -/

theorem outBuilding_inj {b b' : Nat} (h : hdfComponents (outBuilding b) = hdfComponents (outBuilding b')) : b = b' := by
  rw [outBuilding_components, outBuilding_components] at h
  simp only [List.cons.injEq, List.append_cancel_left_eq, and_true] at h
  exact formatNat_injective _ _ h

/-- The tables of another building are not written to. -/
theorem notWritten_other (house : House) (b i : Nat) (h : b ≠ house.building) : NotWritten house (outMeterKey b i) := by
  refine ⟨outMeterKey_ne b i, ?_, ?_⟩
  · rw [outMeterKey_components, outBuilding_components]
    simp
  · intro j _ hp
    have := hp.eq_of_length (by rw [outMeterKey_components, outMeterKey_components]; rfl)
    exact h (outMeterKey_inj this).1

theorem outBuilding_ne (b : Nat) : hdfComponents (outBuilding b) ≠ [] := by
  rw [outBuilding_components]; simp

/-- What was done stays done while other buildings are written. -/
theorem HouseDone.later {m : AcrossModel} {house : House} {sp : Int} {sections : List TF} {states : PowerChunk → List Nat}
    {s0 s1 s2 : DisagStore} (h : HouseDone m house sp sections states s0 s1)
    (h1 : ∀ i, s2.seen (hdfComponents (outMeterKey house.building i)) = s1.seen (hdfComponents (outMeterKey house.building i)))
    (h2 : hdfGetMetadata s2 (outBuilding house.building) = hdfGetMetadata s1 (outBuilding house.building)) :
    HouseDone m house sp sections states s0 s2 := by
  have hr : ∀ i, outRows s2 (outMeterKey house.building i) = outRows s1 (outMeterKey house.building i) := by
    intro i
    rw [outRows_seen, outRows_seen, h1 i]
  exact ⟨fun i e x he hx => by rw [hr]; exact h.rows i e x he hx, by rw [hr]; exact h.mains,
    fun f l hf hl => by rw [h2]; exact h.metadata f l hf hl⟩

/-- The same, for a building that is written after others. -/
theorem HouseDone.earlier {m : AcrossModel} {house : House} {sp : Int} {sections : List TF} {states : PowerChunk → List Nat}
    {s0 s1 s2 : DisagStore} (h : HouseDone m house sp sections states s1 s2)
    (h1 : ∀ i, s1.seen (hdfComponents (outMeterKey house.building i)) = s0.seen (hdfComponents (outMeterKey house.building i))) :
    HouseDone m house sp sections states s0 s2 := by
  have hr : ∀ i, outRows s1 (outMeterKey house.building i) = outRows s0 (outMeterKey house.building i) := by
    intro i
    rw [outRows_seen, outRows_seen, h1 i]
  exact ⟨fun i e x he hx => by rw [← hr]; exact h.rows i e x he hx, by rw [← hr]; exact h.mains, h.metadata⟩

theorem acrossLoop_spec (m : AcrossModel) (hn : (m.individual.map Prod.fst).Nodup) (ha : m.appliances.Nodup) (sp : Int)
    (hsp : 0 ≤ sp) (sections : List TF) (buildings : Nat → Option House) (house : Nat → House)
    (states : Nat → PowerChunk → List Nat) : ∀ (list : List Nat), (∀ b ∈ list, buildings b = some (house b)) →
    (list.map (fun b => (house b).building)).Nodup → (∀ b ∈ list, HouseOk m (house b) sp sections (states b)) →
    ∀ (store : DisagStore) (cols : Bool),
    ∃ store' cols', acrossLoop m buildings list sp (some sections) (store, cols) = ((store', cols'), .ok ()) ∧
      (∀ b ∈ list, HouseDone m (house b) sp sections (states b) store store') ∧
      (∀ key, (∀ b ∈ list, NotWritten (house b) key) → store'.seen (hdfComponents key) = store.seen (hdfComponents key)) ∧
      (∀ key, hdfComponents key ≠ [] → (∀ b ∈ list, hdfComponents key ≠ hdfComponents (outBuilding (house b).building)) →
        hdfGetMetadata store' key = hdfGetMetadata store key) := by
  intro list
  induction list with
  | nil =>
    intro _ _ _ store cols
    exact ⟨store, cols, rfl, by simp, fun _ _ => rfl, fun _ _ _ => rfl⟩
  | cons b bs ih =>
    intro hb hnum hok store cols
    rw [List.map_cons, List.nodup_cons] at hnum
    have hob := hok b List.mem_cons_self
    obtain ⟨g, hg⟩ := hob.good
    obtain ⟨s1, c1, a1, a2, a3, a4⟩ := house_step m hn ha sp hsp (house b) sections (states b) hob store cols
    obtain ⟨s2, c2, i1, i2, i3, i4⟩ := ih (fun x hx => hb x (List.mem_cons_of_mem _ hx)) hnum.2
      (fun x hx => hok x (List.mem_cons_of_mem _ hx)) s1 c1
    have hne : ∀ x ∈ bs, (house b).building ≠ (house x).building := by
      intro x hx hc
      exact hnum.1 (List.mem_map.2 ⟨x, hx, hc.symm⟩)
    refine ⟨s2, c2, ?_, ?_, ?_, ?_⟩
    · rw [acrossLoop, hb b List.mem_cons_self]
      simp only [hg, acrossMeters_eq (house b) hob.appliances hob.getItem m.appliances, Option.getD_some, a1]
      exact i1
    · intro x hx
      rcases List.mem_cons.1 hx with rfl | hx
      · refine a2.later (fun i => i3 _ (fun y hy => notWritten_other _ _ _ (hne y hy))) (i4 _ (outBuilding_ne _) ?_)
        intro y hy hc
        exact hne y hy (outBuilding_inj hc)
      · exact (i2 x hx).earlier (fun i => a3 _ (notWritten_other _ _ _ (hne x hx).symm))
    · intro key hk
      rw [i3 key (fun x hx => hk x (List.mem_cons_of_mem _ hx)), a3 key (hk b List.mem_cons_self)]
    · intro key h1 h2
      rw [i4 key h1 (fun x hx => h2 x (List.mem_cons_of_mem _ hx)), a4 key h1 (h2 b List.mem_cons_self)]

/-! ### Theorems -/

/-- C97. Given sections, and buildings that are as they should be and differ: the call succeeds, and every building of the list has
the estimates of every appliance of the model it has a meter for, its mains, and its metadata, over its own chunks; nothing else
in the store changes except the metadata of the dataset. Partial: only for sections that the caller passes. -/
theorem C97_rows_partial (m : AcrossModel) (hn : (m.individual.map Prod.fst).Nodup) (ha : m.appliances.Nodup) (sp : Option Int)
    (hsp : 0 ≤ sp.getD 60) (sections : List TF) (buildings : Nat → Option House) (house : Nat → House)
    (states : Nat → PowerChunk → List Nat) (list : List Nat) (hb : ∀ b ∈ list, buildings b = some (house b))
    (hnum : (list.map (fun b => (house b).building)).Nodup)
    (hok : ∀ b ∈ list, HouseOk m (house b) (sp.getD 60) sections (states b)) (store : DisagStore) :
    ∃ store', disaggregateAcross true m buildings list sp (some sections) store = (store', .ok ()) ∧
      (∀ b ∈ list, HouseDone m (house b) (sp.getD 60) sections (states b) store store') ∧
      (∀ key, (∀ b ∈ list, NotWritten (house b) key) → store'.seen (hdfComponents key) = store.seen (hdfComponents key)) ∧
      (∀ key, hdfComponents key ≠ [] → (∀ b ∈ list, hdfComponents key ≠ hdfComponents (outBuilding (house b).building)) →
        hdfGetMetadata store' key = hdfGetMetadata store key) := by
  obtain ⟨store', cols', h1, h2⟩ := acrossLoop_spec m hn ha (sp.getD 60) hsp sections buildings house states list hb hnum hok
    store false
  refine ⟨store', ?_, h2⟩
  unfold disaggregateAcross
  simp only [Bool.true_eq_false, if_false, h1]

/-- C97. Without sections, those of the first building are used for all buildings. -/
theorem C97_sections (m : AcrossModel) (buildings : Nat → Option House) (b : Nat) (bs : List Nat) (house : House)
    (hb : buildings b = some house) (g : List TF) (hg : house.goodSections = .ok g) (sp : Option Int) (store : DisagStore) :
    disaggregateAcross true m buildings (b :: bs) sp none store =
      disaggregateAcross true m buildings (b :: bs) sp (some g) store := by
  unfold disaggregateAcross
  simp only [Bool.true_eq_false, if_false, acrossLoop, hb, hg, Option.getD_none, Option.getD_some]

/-- C97. Hence without sections the call for one building uses its own good sections. -/
theorem C97_single (m : AcrossModel) (hn : (m.individual.map Prod.fst).Nodup) (ha : m.appliances.Nodup) (sp : Option Int)
    (hsp : 0 ≤ sp.getD 60) (buildings : Nat → Option House) (b : Nat) (house : House) (hb : buildings b = some house)
    (g : List TF) (hg : house.goodSections = .ok g) (states : PowerChunk → List Nat)
    (hok : HouseOk m house (sp.getD 60) g states) (store : DisagStore) :
    ∃ store', disaggregateAcross true m buildings [b] sp none store = (store', .ok ()) ∧
      HouseDone m house (sp.getD 60) g states store store' := by
  rw [C97_sections m buildings b [] house hb g hg sp store]
  obtain ⟨store', h1, h2, _⟩ := C97_rows_partial m hn ha sp hsp g buildings (fun _ => house) (fun _ => states) [b]
    (by simpa using hb) (by simp) (by simpa using hok) store
  exact ⟨store', h1, h2 b (by simp)⟩

/-- C97. What ends the call: a building that is not there raises `KeyError`; a submeter without appliances `IndexError`, before
anything of the building is written; an exception from `good_sections` is passed on. If the mains raise, the chunks before are
written and there is no metadata. The buildings before it are done, and those after it are not begun. -/
theorem C97_stops (m : AcrossModel) (sp : Option Int) (sections : List TF) (buildings : Nat → Option House)
    (pre post : List Nat) (x : Nat) (store store' : DisagStore)
    (hpre : disaggregateAcross true m buildings pre sp (some sections) store = (store', .ok ())) :
    (buildings x = none →
      disaggregateAcross true m buildings (pre ++ x :: post) sp (some sections) store = (store', .error .keyError)) ∧
    (∀ h e, buildings x = some h → h.goodSections = .error e →
      disaggregateAcross true m buildings (pre ++ x :: post) sp (some sections) store = (store', .error e)) ∧
    (∀ h g y, buildings x = some h → h.goodSections = .ok g → h.submeters.head? = some y → y.appliances = [] →
      m.appliances ≠ [] →
      disaggregateAcross true m buildings (pre ++ x :: post) sp (some sections) store = (store', .error .indexError)) ∧
    (∀ h states e, buildings x = some h → HouseReady m h (sp.getD 60) sections states → (m.individual.map Prod.fst).Nodup →
      (h.load (sp.getD 60) sections).err = some e →
      ∃ st, disaggregateAcross true m buildings (pre ++ x :: post) sp (some sections) store = (st, .error e) ∧
      (∀ (i : Nat) e x, m.individual[i]? = some e → houseMeter h e.1 = some x →
        outRows st (outMeterKey h.building x.inst) = outRows store' (outMeterKey h.building x.inst) ++
          ((houseChunks h (sp.getD 60) sections).map (fhmmRows (m.individual.map Prod.snd) states i)).flatten) ∧
      outRows st (outMeterKey h.building 1) = outRows store' (outMeterKey h.building 1) ++
        ((houseChunks h (sp.getD 60) sections).map PowerChunk.rows).flatten ∧
      (∀ key, NotWritten h key → st.seen (hdfComponents key) = store'.seen (hdfComponents key)) ∧
      (∀ key, hdfGetMetadata st key = hdfGetMetadata store' key)) := by
  have happ : ∀ (pre : List Nat) (s s' : DisagStore × Bool),
      acrossLoop m buildings pre (sp.getD 60) (some sections) s = (s', .ok ()) →
      acrossLoop m buildings (pre ++ x :: post) (sp.getD 60) (some sections) s =
        acrossLoop m buildings (x :: post) (sp.getD 60) (some sections) s' := by
    intro pre
    induction pre with
    | nil =>
      intro s s' h
      simp only [acrossLoop, Prod.mk.injEq, and_true] at h
      rw [h, List.nil_append]
    | cons b bs ih =>
      intro s s' h
      rw [List.cons_append]
      rw [acrossLoop] at h ⊢
      cases hbb : buildings b with
      | none => rw [hbb] at h; simp at h
      | some hs =>
        rw [hbb] at h
        cases hgg : hs.goodSections with
        | error e => simp [hgg] at h
        | ok g =>
          simp only [hgg, Option.getD_some] at h ⊢
          cases hmm : acrossMeters hs m.appliances with
          | error e => simp [hmm] at h
          | ok ms =>
            simp only [hmm] at h ⊢
            rcases hcc : acrossChunks m (sp.getD 60) hs ms (hs.load (sp.getD 60) sections) s with ⟨s1, e | u⟩
            · simp [hcc] at h
            · simp only [hcc] at h ⊢
              exact ih s1 s' h
  have hrun : ∃ c, acrossLoop m buildings pre (sp.getD 60) (some sections) (store, false) = ((store', c), .ok ()) := by
    unfold disaggregateAcross at hpre
    simp only [Bool.true_eq_false, if_false, Prod.mk.injEq] at hpre
    exact ⟨_, Prod.ext (Prod.ext hpre.1 rfl) hpre.2⟩
  obtain ⟨c, hrun⟩ := hrun
  have hall := happ pre _ _ hrun
  unfold disaggregateAcross
  simp only [Bool.true_eq_false, if_false, hall]
  refine ⟨?_, ?_, ?_, ?_⟩
  · intro h
    simp [acrossLoop, h]
  · intro h e h1 h2
    simp [acrossLoop, h1, h2]
  · intro h g y h1 h2 h3 h4 h5
    obtain ⟨a, as, h6⟩ := List.exists_cons_of_ne_nil h5
    obtain ⟨ys, h7⟩ : ∃ ys, h.submeters = y :: ys := by
      cases hsub : h.submeters with
      | nil => rw [hsub] at h3; cases h3
      | cons z zs => rw [hsub] at h3; simp at h3; exact ⟨zs, by rw [h3]⟩
    simp [acrossLoop, h1, h2, h6, acrossMeters, h7, meterInstance, h4]
  · intro h states e h1 h2 h3 h4
    obtain ⟨g, hg⟩ := h2.good
    obtain ⟨st, cols', r, hac, wR, wM, hseen, _, he, _, _⟩ := house_rows m h3 (sp.getD 60) h sections states h2 store' c
    obtain ⟨rfl, hmd⟩ := he e h4
    refine ⟨st, ?_, wR, wM, hseen, hmd⟩
    rw [acrossLoop, h1]
    simp only [hg, acrossMeters_eq h h2.appliances h2.getItem m.appliances, Option.getD_some, hac]

/-- C97. Without a model nothing is written. -/
theorem C97_untrained (m : AcrossModel) (buildings : Nat → Option House) (b : Nat) (bs : List Nat) (sp : Option Int)
    (sections : Option (List TF)) (store : DisagStore) :
    disaggregateAcross false m buildings (b :: bs) sp sections store =
      (store, .error (if (buildings b).isNone then .keyError else .runtimeError)) := rfl

/-! ### Where the claim fails, and examples -/

/-- A building with a fridge that has readings in `[t, t + 100)` only. -/
def demoHouse (b : Nat) (t : Int) : House where
  building := b
  submeters := [⟨2, b, "d", [("fridge", 1)], none⟩]
  getItem := fun i => if i = 2 then .ok ⟨2, b, "d", [("fridge", 1)], none⟩ else .error .keyError
  goodSections := .ok [TF.mk' (some t) (some (t + 100))]
  load := fun _ sections => ⟨if sections.map TF.start = [some t] then [demoChunk t] else [], none⟩

/-- A building with a kettle. -/
def demoKettle (b : Nat) (t : Int) : House :=
  { demoHouse b t with
    submeters := [⟨3, b, "d", [("kettle", 1)], none⟩]
    getItem := fun i => if i = 3 then .ok ⟨3, b, "d", [("kettle", 1)], none⟩ else .error .keyError }

/-- A model of fridges. -/
def demoAcross : AcrossModel := ⟨[("fridge", [0, 100])], ["fridge"], fun l => .ok (l.map (fun _ => 1))⟩

/-- C97: two buildings that were measured at different times. Without sections the second building is asked for the sections of the
first, and nothing is written for it. -/
theorem C97_sections_counterexample :
    let buildings := fun b => if b = 1 then some (demoHouse 1 0) else if b = 2 then some (demoHouse 2 1000) else none
    let both := disaggregateAcross true demoAcross buildings [1, 2] none none HGroup.new
    let alone := disaggregateAcross true demoAcross buildings [2] none none HGroup.new
    both.2 = .ok () ∧ (outRows both.1 (outMeterKey 1 2)).length = 100 ∧ outRows both.1 (outMeterKey 2 2) = [] ∧
    alone.2 = .ok () ∧ (outRows alone.1 (outMeterKey 2 2)).length = 100 := by
  decide +kernel

/-- C97: a first building without any appliance of the model raises `UnboundLocalError`; as the second building it is fine, and only
its mains are written, without metadata. -/
theorem C97_unknown_counterexample :
    let buildings := fun b => if b = 1 then some (demoHouse 1 0) else if b = 2 then some (demoKettle 2 0) else none
    let r := disaggregateAcross true demoAcross buildings [2, 1] none none HGroup.new
    let r' := disaggregateAcross true demoAcross buildings [1, 2] none none HGroup.new
    r.2 = .error .unboundLocal ∧ r'.2 = .ok () ∧ (outRows r'.1 (outMeterKey 2 1)).length = 100 ∧
    (hdfGetMetadata r'.1 (outBuilding 2)).toOption = none := by
  decide +kernel

/-- C97: an appliance that was asked for in training but not learnt has a meter in the metadata and no table. -/
theorem C97_unlearnt_counterexample :
    let m := { demoAcross with appliances := ["fridge", "kettle"] }
    let house := { demoHouse 1 0 with
      submeters := [⟨2, 1, "d", [("fridge", 1)], none⟩, ⟨3, 1, "d", [("kettle", 1)], none⟩]
      getItem := fun i => if i = 2 then .ok ⟨2, 1, "d", [("fridge", 1)], none⟩
        else if i = 3 then .ok ⟨3, 1, "d", [("kettle", 1)], none⟩ else .error .keyError }
    let r := disaggregateAcross true m (fun b => if b = 1 then some house else none) [1] none none HGroup.new
    r.2 = .ok () ∧ (outRows r.1 (outMeterKey 1 2)).length = 100 ∧ outRows r.1 (outMeterKey 1 3) = [] ∧
    hdfGetMetadata r.1 (outBuilding 1) =
      .ok (buildingMd "FHMM" 1 (some 0, some 100) [⟨2, 1, "d", [("fridge", 1)], none⟩, ⟨3, 1, "d", [("kettle", 1)], none⟩]) := by
  decide +kernel

theorem demoHouse_ok (b : Nat) (t : Int) :
    HouseOk demoAcross (demoHouse b t) 60 [TF.mk' (some t) (some (t + 100))] (fun _ => List.replicate 100 1) := by
  have hload : ((demoHouse b t).load 60 [TF.mk' (some t) (some (t + 100))]) = ⟨[demoChunk t], none⟩ := by
    simp only [demoHouse, List.map_cons, List.map_nil]
    rw [if_pos]
    rfl
  have hlen : (demoChunk t).rows.length = 100 := by simp [demoChunk]
  have hk : houseChunks (demoHouse b t) 60 [TF.mk' (some t) (some (t + 100))] = [demoChunk t] := by
    simp [houseChunks, hload, hlen]
  refine ⟨⟨by simp [demoHouse], by simp [demoHouse], by simp [demoHouse], ⟨_, rfl⟩, ⟨("fridge", [0, 100]), by simp [demoAcross], ?_⟩,
    ?_⟩, by rw [hload], fun _ => ?_⟩
  rotate_left 2
  · rw [hk]
    exact Chain.single _ t (t + 100) ⟨rfl, rfl, rfl, rfl⟩ (by omega)
  · simp [houseMeter, demoHouse, firstType]
  · intro k hk'
    rw [hk, List.mem_singleton] at hk'
    subst hk'
    have hf : (demoChunk t).rows.filterMap Prod.snd = List.replicate 100 100 := by
      simp only [demoChunk, List.filterMap_map]
      rw [show (Prod.snd ∘ fun i : Nat => (t + (i : Int), some (100 : Rat))) = fun _ => some 100 from rfl]
      rfl
    rw [hf]
    refine ⟨?_, by simp, by simp⟩
    simp [demoAcross]

/-- The hypotheses of `C97_rows_partial` are met: two buildings with readings at the same time. -/
example :
    let buildings := fun b => if b = 1 ∨ b = 2 then some (demoHouse b 0) else none
    let sections := [TF.mk' (some 0) (some 100)]
    ∃ store', disaggregateAcross true demoAcross buildings [2, 1] none (some sections) HGroup.new = (store', .ok ()) ∧
      ∀ b ∈ [2, 1], HouseDone demoAcross (demoHouse b 0) 60 sections (fun _ => List.replicate 100 1) HGroup.new store' := by
  intro buildings sections
  obtain ⟨s, h1, h2, _⟩ := C97_rows_partial demoAcross (by decide) (by decide) none (by decide) sections buildings
    (fun b => demoHouse b 0) (fun _ _ => List.replicate 100 1) [2, 1] (by simp [buildings]) (by simp [demoHouse])
    (fun b _ => demoHouse_ok b 0) HGroup.new
  exact ⟨s, h1, h2⟩

/-- Those of `C97_single`. -/
example : ∃ store', disaggregateAcross true demoAcross (fun b => some (demoHouse b 7)) [4] none none HGroup.new = (store', .ok ()) ∧
    HouseDone demoAcross (demoHouse 4 7) 60 [TF.mk' (some 7) (some 107)] (fun _ => List.replicate 100 1) HGroup.new store' :=
  C97_single demoAcross (by decide) (by decide) none (by decide) _ 4 (demoHouse 4 7) rfl _ rfl _ (demoHouse_ok 4 7) _

/-- Those of `C97_stops`: the third building is missing. -/
example :
    let buildings := fun b => if b = 1 ∨ b = 2 then some (demoHouse b 0) else none
    let r := disaggregateAcross true demoAcross buildings [2, 3, 1] none (some [TF.mk' (some 0) (some 100)]) HGroup.new
    r.2 = .error .keyError ∧ (outRows r.1 (outMeterKey 2 2)).length = 100 ∧ outRows r.1 (outMeterKey 1 2) = [] := by
  decide +kernel

end Nilmtk
