import Verif.Model.FHMM
import Verif.Model.DataSet
import Verif.Model.Store
/-!
Model of `nilmtk/legacy/disaggregate/combinatorial_optimisation.py` and of the parts of
`nilmtk/legacy/disaggregate/disaggregator.py` it uses: training, and writing the estimates of all appliances together with
metadata into an output store (`Model/Store.lean`). The writing loop of `nilmtk/legacy/disaggregate/fhmm_exact.py` is the
same and is an instance of it.

Numbers are exact (the conversion to float32 is not modelled). All submeters are `ElecMeter` objects, which are equal if
their identifiers are. The date in the metadata is left out. `cluster`, `np.argsort` and `GaussianHMM.predict` are inputs.
-/
namespace Nilmtk

/-- A submeter: its identifier, the identifiers of its appliances (type, instance) and its name. -/
structure SubMeter where
  inst : Nat
  building : Nat
  dataset : String
  appliances : List (String × Nat)
  name : Option String
  deriving DecidableEq, Repr

/-- `meter.identifier`: what `==` and `hash` look at (hashable.py:6-16). -/
def SubMeter.ident (m : SubMeter) : Nat × Nat × String := (m.inst, m.building, m.dataset)

/-- A chunk of `mains.power_series()`: its rows (`none` is NaN), `chunk.timeframe` and `chunk.name`. -/
structure PowerChunk where
  rows : List (Row (Option Rat))
  frame : TF
  measurement : String × String
  deriving DecidableEq, Repr

/-- The metadata of one meter in the output. -/
structure OutMeter where
  deviceModel : String
  siteMeter : Bool
  submeterOf : Option Nat
  dataLocation : Str
  timeframe : Option Int × Option Int
  name : Option String
  deriving DecidableEq, Repr

/-- The metadata of one appliance in the output. -/
structure OutAppliance where
  meters : List Nat
  type : String
  inst : Nat
  deriving DecidableEq, Repr

/-- The metadata of a meter device in the output. -/
structure OutDevice where
  model : String
  samplePeriod : Int
  maxSamplePeriod : Int
  measurements : List (String × String)
  deriving DecidableEq, Repr

/-- The metadata of a node of the output. -/
inductive OutMd where
  | dataset (name : String) (devices : List (String × OutDevice)) (timeframe : Option Int × Option Int)
  | building (inst : Nat) (meters : List (Nat × OutMeter)) (appliances : List OutAppliance)
  deriving DecidableEq, Repr

/-- The output store. -/
abbrev DisagStore := HGroup OutMd (Option Rat)

/-- `'/building{}'.format(building)`, disaggregator.py:133. -/
def outBuilding (building : Nat) : Str := "/building".toList ++ formatNat building

/-- `'{}/elec/meter{}'.format(building_path, meter_instance)`, disaggregator.py:189-191 and
combinatorial_optimisation.py:165. -/
def outMeterKey (building inst : Nat) : Str := outBuilding building ++ ("/elec/meter".toList ++ formatNat inst)

/-- `update_elec_meters`, disaggregator.py:184-198. -/
def updateElecMeters (modelName : String) (building : Nat) (tf : Option Int × Option Int) (meters : List (Nat × OutMeter))
    (inst : Nat) : List (Nat × OutMeter) :=
  orderedSet meters inst ⟨modelName, false, some 1, outMeterKey building inst, tf, none⟩

/-- `elec_meters[meter_instance]['name'] = meter.name`, disaggregator.py:219-221, if the name is there and not empty. -/
def setMeterName (meters : List (Nat × OutMeter)) (inst : Nat) (name : Option String) : List (Nat × OutMeter) :=
  match name with
  | none => meters
  | some s => if s = "" then meters else meters.map (fun e => if e.1 = inst then (e.1, { e.2 with name := some s }) else e)

/-- The loop over the meters, disaggregator.py:203-221. -/
def supervisedLoop (modelName : String) (building : Nat) (tf : Option Int × Option Int) :
    List SubMeter → List (Nat × OutMeter) → List OutAppliance → List (Nat × OutMeter) × List OutAppliance
  | [], ms, as => (ms, as)
  | m :: rest, ms, as =>
    supervisedLoop modelName building tf rest
      (setMeterName (updateElecMeters modelName building tf ms m.inst) m.inst m.name)
      (as ++ m.appliances.map (fun a => ⟨[m.inst], a.1, a.2⟩))

/-- The loop over the channels, disaggregator.py:225-235; `chan` starts at 2. -/
def unsupervisedLoop (modelName : String) (building : Nat) (tf : Option Int × Option Int) :
    Nat → Nat → List (Nat × OutMeter) → List OutAppliance → List (Nat × OutMeter) × List OutAppliance
  | 0, _, ms, as => (ms, as)
  | n + 1, chan, ms, as =>
    unsupervisedLoop modelName building tf n (chan + 1) (updateElecMeters modelName building tf ms chan)
      (as ++ [⟨[chan], "unknown", chan - 1⟩])

/-- `supervised` with `meters`, or not with `num_meters`. -/
inductive Outputs where
  | supervised (meters : List SubMeter)
  | unsupervised (num : Nat)

/-- Meters and appliances, disaggregator.py:200-235. -/
def outputsLoop (modelName : String) (building : Nat) (tf : Option Int × Option Int) (outputs : Outputs)
    (meters : List (Nat × OutMeter)) : List (Nat × OutMeter) × List OutAppliance :=
  match outputs with
  | .supervised ms => supervisedLoop modelName building tf ms meters []
  | .unsupervised num => unsupervisedLoop modelName building tf num 2 meters []

/-- `_save_metadata_for_disaggregation`, disaggregator.py:95-243; the sample period in seconds. The metadata of the dataset is
written before that of the building. -/
def saveDisagMetadata (store : DisagStore) (modelName : String) (samplePeriod : Int) (measurement : String × String)
    (timeframes : List TF) (building : Nat) (outputs : Outputs) : DisagStore × Except Err Unit :=
  let device : String → OutDevice := fun n => ⟨n, samplePeriod, samplePeriod, [measurement]⟩
  match mergeTimeframes timeframes (samplePeriod * 1000000000) with
  | .error e => (store, .error e)
  | .ok merged =>
    match merged.head?, merged.getLast? with
    | some a, some b =>
      match TF.ctor a.start b.stop with
      | .error e => (store, .error e)
      | .ok total =>
        match hdfSaveMetadata store "/".toList
            (.dataset modelName (orderedSet [(modelName, device modelName)] "mains" (device "mains")) total.toDict) with
        | .error e => (store, .error e)
        | .ok store' =>
          let mains : OutMeter := ⟨"mains", true, none, outMeterKey building 1, total.toDict, none⟩
          let r := outputsLoop modelName building total.toDict outputs [(1, mains)]
          match hdfSaveMetadata store' (outBuilding building) (.building building r.1 r.2) with
          | .error e => (store', .error e)
          | .ok store'' => (store'', .ok ())
    | _, _ => (store, .error .indexError)

/-- `_pre_disaggregation_checks`, disaggregator.py:81-93: the keyword arguments as a dictionary. -/
def preChecks {ν : Type} (trained : Bool) (kwargs : List (String × ν)) : Except Err (List (String × ν)) :=
  if trained = false then .error .runtimeError
  else
    match kwargs.lookup "resample_seconds" with
    | none => .ok kwargs
    | some v => .ok (dictSet (kwargs.filter (fun e => !(e.1 == "resample_seconds"))) "sample_period" v)

/-- What the loop over the chunks keeps: the store, `timeframes`, `measurement`, whether `cols` is bound, `data_is_available`. -/
structure DisagState where
  store : DisagStore
  timeframes : List TF
  measurement : Option (String × String)
  cols : Bool
  available : Bool

/-- The loop over the estimates of one chunk, combinatorial_optimisation.py:154-166 and fhmm_exact.py:440-453: for every
meter its instance and its rows. `colsFirst`: whether `cols` is bound before the check for an empty estimate. -/
def writeEstimates (colsFirst : Bool) (building : Nat) :
    List (Nat × List (Row (Option Rat))) → DisagState → DisagState × Except Err Unit
  | [], s => (s, .ok ())
  | e :: es, s =>
    let s := if colsFirst then { s with cols := true } else s
    if e.2.length = 0 then writeEstimates colsFirst building es s
    else
      let s := { s with cols := true, available := true }
      match hdfAppend s.store (outMeterKey building e.1) e.2 with
      | .error x => (s, .error x)
      | .ok store => writeEstimates colsFirst building es { s with store := store }

/-- The loop over the chunks, combinatorial_optimisation.py:143-170 and fhmm_exact.py:430-457. `predict` gives the estimates for
a chunk, together with the disaggregator afterwards. -/
def disagLoop {σ : Type} (colsFirst : Bool) (minLen building : Nat)
    (predict : σ → PowerChunk → σ × Except Err (List (Nat × List (Row (Option Rat))))) :
    List PowerChunk → σ → DisagState → (σ × DisagState) × Except Err Unit
  | [], c, s => ((c, s), .ok ())
  | k :: ks, c, s =>
    if k.rows.length < minLen then disagLoop colsFirst minLen building predict ks c s
    else
      let s := { s with timeframes := s.timeframes ++ [k.frame], measurement := some k.measurement }
      match predict c k with
      | (c', .error e) => ((c', s), .error e)
      | (c', .ok es) =>
        match writeEstimates colsFirst building es s with
        | (s', .error e) => ((c', s'), .error e)
        | (s', .ok ()) =>
          if s'.cols = false then ((c', s'), .error .unboundLocal)
          else
            match hdfAppend s'.store (outMeterKey building 1) k.rows with
            | .error e => ((c', s'), .error e)
            | .ok store => disagLoop colsFirst minLen building predict ks c' { s' with store := store }

/-- `disaggregate` after the checks, combinatorial_optimisation.py:138-180 and fhmm_exact.py:425-467: the disaggregator and the
store afterwards. `mains` are the chunks, with the exception that ends them if there is one. -/
def disagWrite {σ : Type} (colsFirst : Bool) (minLen : Nat) (modelName : String) (samplePeriod : Int) (building : Nat)
    (meters : List SubMeter) (predict : σ → PowerChunk → σ × Except Err (List (Nat × List (Row (Option Rat)))))
    (mains : Gen PowerChunk) (c : σ) (store : DisagStore) : (σ × DisagStore) × Except Err Unit :=
  match disagLoop colsFirst minLen building predict mains.out c ⟨store, [], none, false, false⟩ with
  | ((c', s), .error e) => ((c', s.store), .error e)
  | ((c', s), .ok ()) =>
    match mains.err with
    | some e => ((c', s.store), .error e)
    | none =>
      if s.available = false then ((c', s.store), .ok ())
      else
        match s.measurement with
        | none => ((c', s.store), .error .unboundLocal)
        | some m =>
          let r := saveDisagMetadata s.store modelName samplePeriod m s.timeframes building (.supervised meters)
          ((c', r.1), r.2)

/-! ### CombinatorialOptimisation -/

/-- A `CombinatorialOptimisation` object. -/
structure LegacyCO where
  model : List (SubMeter × List Int)
  table : Option Combinations
  minChunkLength : Nat
  deriving DecidableEq, Repr

/-- `__init__`, combinatorial_optimisation.py:38-42. -/
def LegacyCO.init : LegacyCO := ⟨[], none, 100⟩

/-- `train_on_chunk`, combinatorial_optimisation.py:92-104, with the states that `cluster` finds. -/
def LegacyCO.trainOnChunk (c : LegacyCO) (meter : SubMeter) (states : Except Err (List Int)) :
    LegacyCO × Except Err Unit :=
  if meter.ident ∈ c.model.map (fun e => e.1.ident) then (c, .error .runtimeError)
  else
    match states with
    | .error e => (c, .error e)
    | .ok st => ({ c with model := c.model ++ [(meter, st)] }, .ok ())

/-- The loop of `train`, combinatorial_optimisation.py:69-88. For every submeter: the exception or the states for its first chunk
(`next` raises `StopIteration` if there is none). -/
def LegacyCO.trainLoop (c : LegacyCO) : List (SubMeter × Except Err (List Int)) → LegacyCO × Except Err Unit
  | [] => (c, .ok ())
  | m :: ms =>
    match c.trainOnChunk m.1 m.2 with
    | (c', .error e) => (c', .error e)
    | (c', .ok ()) => c'.trainLoop ms

/-- `train`, combinatorial_optimisation.py:44-90. -/
def LegacyCO.train (c : LegacyCO) (submeters : List (SubMeter × Except Err (List Int))) : LegacyCO × Except Err Unit :=
  if c.model ≠ [] then (c, .error .runtimeError) else c.trainLoop submeters

/-- `_set_state_combinations_if_necessary`, combinatorial_optimisation.py:106-113, for a model that is not empty. -/
def LegacyCO.setCombinations (c : LegacyCO) : LegacyCO × Combinations :=
  let fresh : Combinations := ⟨c.model.length, cartesian (c.model.map Prod.snd)⟩
  match c.table with
  | none => ({ c with table := some fresh }, fresh)
  | some t => if t.cols ≠ c.model.length then ({ c with table := some fresh }, fresh) else (c, t)

/-- The columns of `appliance_powers_dict`, combinatorial_optimisation.py:233-241; `i` counts the models. -/
def legacyColumns (t : Combinations) (idx : List Nat) :
    List (SubMeter × List Int) → Nat → List ((Nat × Nat × String) × List Int) → List ((Nat × Nat × String) × List Int)
  | [], _, d => d
  | a :: as, i, d =>
    legacyColumns t idx as (i + 1) (orderedSet d a.1.ident (idx.map (fun k : Nat => (t.rows.getD k []).getD i 0)))

/-- `disaggregate_chunk`, combinatorial_optimisation.py:182-243: the columns in order. `find_nearest` raises `IndexError` if there
is no combination. -/
def LegacyCO.disaggregateChunk (argsort : List Rat → List Nat) (c : LegacyCO) (mains : List (Option Rat)) :
    LegacyCO × Except Err (List (List Int)) :=
  if c.model = [] then (c, .error .runtimeError)
  else if mains.length < c.minChunkLength then (c, .error .runtimeError)
  else
    let r := c.setCombinations
    if r.2.rows = [] ∧ mains ≠ [] then (r.1, .error .indexError)
    else (r.1, .ok ((legacyColumns r.2 (mains.map (nearestIndex (comboSums r.2) (argsort (comboSums r.2)))) c.model 0 []).map
      Prod.snd))

/-- `appliance_powers.iloc[:, i]` for every model with the instance of its meter, combinatorial_optimisation.py:154-164. -/
def columnsByPosition (times : List Int) (columns : List (List Int)) :
    List (SubMeter × List Int) → Nat → Except Err (List (Nat × List (Row (Option Rat))))
  | [], _ => .ok []
  | a :: as, i =>
    match columns[i]? with
    | none => .error .indexError
    | some col =>
      match columnsByPosition times columns as (i + 1) with
      | .error e => .error e
      | .ok rest => .ok ((a.1.inst, List.zip times (col.map (fun x : Int => some (x : Rat)))) :: rest)

/-- The estimates for one chunk. -/
def LegacyCO.estimates (argsort : List Rat → List Nat) (c : LegacyCO) (k : PowerChunk) :
    LegacyCO × Except Err (List (Nat × List (Row (Option Rat)))) :=
  match c.disaggregateChunk argsort (k.rows.map Prod.snd) with
  | (c', .error e) => (c', .error e)
  | (c', .ok cols) => (c', columnsByPosition (k.rows.map Prod.fst) cols c'.model 0)

/-- `disaggregate`, combinatorial_optimisation.py:115-180. -/
def LegacyCO.disaggregate (argsort : List Rat → List Nat) (c : LegacyCO) (samplePeriod : Int) (building : Nat)
    (mains : Gen PowerChunk) (store : DisagStore) : (LegacyCO × DisagStore) × Except Err Unit :=
  if c.model = [] then ((c, store), .error .runtimeError)
  else disagWrite false c.minChunkLength "CO" samplePeriod building (c.model.map Prod.fst)
    (LegacyCO.estimates argsort) mains c store

/-- One call. -/
inductive LegacyCall where
  | train (submeters : List (SubMeter × Except Err (List Int)))
  | trainOnChunk (meter : SubMeter) (states : Except Err (List Int))
  | disaggregateChunk (mains : List (Option Rat))
  | disaggregate (samplePeriod : Int) (building : Nat) (mains : Gen PowerChunk)

/-- A history of calls with one output store, including calls that raise. -/
def LegacyCO.run (argsort : List Rat → List Nat) : List LegacyCall → LegacyCO × DisagStore → LegacyCO × DisagStore
  | [], s => s
  | .train ms :: h, (c, store) => LegacyCO.run argsort h ((c.train ms).1, store)
  | .trainOnChunk m st :: h, (c, store) => LegacyCO.run argsort h ((c.trainOnChunk m st).1, store)
  | .disaggregateChunk mains :: h, (c, store) => LegacyCO.run argsort h ((c.disaggregateChunk argsort mains).1, store)
  | .disaggregate sp b mains :: h, (c, store) => LegacyCO.run argsort h (c.disaggregate argsort sp b mains store).1

/-! ### FHMM -/

/-- `FHMM.disaggregate_chunk`, fhmm_exact.py:368-404, and the columns taken from it (440-452), for trained meters (the keys of a
dictionary) with their rounded and sorted means: missing readings are left out, and the combined states that
`GaussianHMM.predict` finds are decoded (fhmm_exact.py:139-165, the function is that of `Model/FHMM.lean`). -/
def fhmmEstimates (predict : List Rat → Except Err (List Nat)) (meters : List (SubMeter × List Int)) (k : PowerChunk) : Except Err (List (Nat × List (Row (Option Rat)))) :=
  let known := k.rows.filterMap (fun r => r.2.map (fun x => (r.1, x)))
  match predict (known.map Prod.snd) with
  | .error e => .error e
  | .ok states =>
    .ok (meters.zipIdx.map (fun m =>
      (m.1.1.inst, List.zip (known.map Prod.fst)
        (states.map (fun s => some (((decodePower (meters.map Prod.snd) s).getD m.2 0 : Int) : Rat))))))

/-- `FHMM.disaggregate`, fhmm_exact.py:407-467; `trained`: whether `self.model` is there. -/
def legacyFhmm (predict : List Rat → Except Err (List Nat)) (trained : Bool) (meters : List (SubMeter × List Int))
    (samplePeriod : Int) (building : Nat) (mains : Gen PowerChunk) (store : DisagStore) : DisagStore × Except Err Unit :=
  if trained = false then (store, .error .runtimeError)
  else
    let r := disagWrite true 100 "FHMM" samplePeriod building (meters.map Prod.fst)
      (fun u k => (u, fhmmEstimates predict meters k)) mains () store
    (r.1.2, r.2)

end Nilmtk
