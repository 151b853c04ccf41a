import Verif.Model.Measurement
import Verif.Model.Experiment
/-!
Model of what the datasets opened in one session share: the class attribute `ElecMeter.meter_devices` and the module attribute
`nilmtk.global_meter_group`. `DataSet.import_metadata` (`nilmtk/dataset.py`), `Building.import_metadata` (`nilmtk/building.py`), the
first part of `MeterGroup.import_metadata` (`nilmtk/metergroup.py`), and `ElecMeter.__init__`, `load_meter_devices`, `device`,
`sample_period`, `available_ac_types`, `available_physical_quantities`, `available_columns`, `upstream_meter`
(`nilmtk/elecmeter.py`).

Simplifications: the instances of meters are numbers; appliances are left out (`Model/Import.lean`), also that an appliance which cannot
be attached ends the import; warnings are left out. A meter is the `ElecMeter` object, with the store it was made with: two objects with the same
identifier are equal in Python (hashable.py:6-17) and different here.
-/
namespace Nilmtk

/-- `ElecMeterID`; the dataset is `None` for files without a name. -/
structure SId where
  inst : Int
  building : Int
  dataset : Option String
  deriving DecidableEq, Repr

/-- The metadata of a meter that are read: `device_model`, `site_meter`, `submeter_of`, `upstream_meter_in_building`. -/
structure SInfo where
  model : Option String
  site : Bool
  submeterOf : Option Int
  inBuilding : Option Int
  deriving DecidableEq, Repr

/-- An `ElecMeter` object: identifier, number of the store it reads from, metadata. -/
structure SessMeter where
  id : SId
  store : Nat
  info : SInfo
  deriving DecidableEq, Repr

/-- A `MeterDevice`: `sample_period`, `measurements`, and the other entries. -/
structure SDevice where
  period : Option Rat
  measurements : Option (List Measurement)
  rest : List (String × String)
  deriving DecidableEq, Repr

/-- `{}`. -/
def SDevice.nothing : SDevice := ⟨none, none, []⟩

/-- The metadata of a building: `instance`, its own `dataset` if it has one, and `elec_meters`. -/
structure SBuilding where
  inst : Int
  dataset : Option String
  meters : List (Int × SInfo)
  deriving DecidableEq, Repr

/-- A store with the metadata of a dataset: the number of the store, `name`, `meter_devices`, and the buildings in the order of their
keys. -/
structure SFile where
  store : Nat
  name : Option String
  devices : Option (List (String × SDevice))
  buildings : List SBuilding
  deriving DecidableEq, Repr

/-- What is shared: `ElecMeter.meter_devices` and the meters of `nilmtk.global_meter_group`. -/
structure Session where
  devices : List (String × SDevice)
  meters : List SessMeter
  deriving DecidableEq, Repr

/-- `ElecMeter.meter_devices.update(...)`, elecmeter.py:137-141. -/
def updateDevices (d new : List (String × SDevice)) : List (String × SDevice) :=
  new.foldl (fun acc e => dictSet acc e.1 e.2) d

/-- The insertion in `nilmtk.global_meter_group`, elecmeter.py:59-63; `in` compares identifiers. -/
def enrol (glob : List SessMeter) (m : SessMeter) : List SessMeter :=
  if glob.any (fun g => decide (g.id = m.id)) then glob else glob ++ [m]

/-- The `dataset` of a building, building.py:27-28: its own, or the name of the dataset. -/
def SFile.datasetOf (f : SFile) (b : SBuilding) : Option String :=
  match b.dataset with
  | some d => some d
  | none => f.name

/-- The meters made for a building, metergroup.py:92-98. -/
def SFile.metersOf (f : SFile) (b : SBuilding) : List SessMeter :=
  b.meters.map (fun p => ⟨⟨p.1, b.inst, f.datasetOf b⟩, f.store, p.2⟩)

/-- `Building.import_metadata`, building.py:25-31, and metergroup.py:88-98. -/
def openBuilding (f : SFile) (s : Session) (b : SBuilding) : Session :=
  ⟨updateDevices s.devices (f.devices.getD []), (f.metersOf b).foldl enrol s.meters⟩

/-- `DataSet.import_metadata`, dataset.py:47-71. -/
def openFile (s : Session) (f : SFile) : Session := f.buildings.foldl (openBuilding f) s

/-- The datasets opened one after another. -/
def session (fs : List SFile) : Session := fs.foldl openFile ⟨[], []⟩

/-- `device`, elecmeter.py:153-164; no model and an empty one give `{}`. -/
def sDevice (devices : List (String × SDevice)) (i : SInfo) : Except Err SDevice :=
  match i.model with
  | none => .ok SDevice.nothing
  | some n =>
    if n = "" then .ok SDevice.nothing
    else
      match devices.lookup n with
      | none => .error .keyError
      | some d => .ok d

/-- `sample_period`, elecmeter.py:166-169; `None` for an empty device. -/
def sPeriod (devices : List (String × SDevice)) (i : SInfo) : Except Err (Option Rat) :=
  match sDevice devices i with
  | .error e => .error e
  | .ok d =>
    if d = SDevice.nothing then .ok none
    else
      match d.period with
      | none => .error .keyError
      | some p => .ok (some p)

/-- `self.device['measurements']`, elecmeter.py:264, 275 and 284. -/
def sMeasurements (devices : List (String × SDevice)) (i : SInfo) : Except Err (List Measurement) :=
  match sDevice devices i with
  | .error e => .error e
  | .ok d =>
    match d.measurements with
    | none => .error .keyError
    | some ms => .ok ms

/-- `available_columns`, elecmeter.py:278-286. -/
def sColumns (devices : List (String × SDevice)) (i : SInfo) : Except Err (List Col) :=
  match sMeasurements devices i with
  | .error e => .error e
  | .ok ms => .ok (availableColumns ms)

/-- `available_ac_types` of one physical quantity, elecmeter.py:260-267: an unknown quantity is refused before the device is looked up. -/
def sAcTypes (devices : List (String × SDevice)) (i : SInfo) (q : String) : Except Err (List String) :=
  if q ∈ physicalQuantities then
    match sMeasurements devices i with
    | .error e => .error e
    | .ok ms => availableAcTypes ms q
  else .error .valueError

/-- `max` of a list of numbers and `None`: `None` cannot be compared. -/
def maxPeriods : Option Rat → List (Option Rat) → Except Err (Option Rat)
  | p, [] => .ok p
  | some p, some q :: rest => maxPeriods (some (if p < q then q else p)) rest
  | _, _ :: _ => .error .typeError

/-- `MeterGroup.sample_period`, metergroup.py:574-576, of a group of meters. -/
def sGroupPeriod (devices : List (String × SDevice)) : List SInfo → Except Err (Option Rat)
  | [] => .error .valueError
  | i :: is =>
    match sPeriod devices i with
    | .error e => .error e
    | .ok p =>
      match mapE (sPeriod devices) is with
      | .error e => .error e
      | .ok ps => maxPeriods p ps

/-- What `upstream_meter` returns: a meter, or a new group of the site meters. -/
inductive SNode where
  | elec (m : SessMeter)
  | mains (ms : List SessMeter)
  deriving DecidableEq, Repr

/-- `mains()` of the meters selected, metergroup.py:777-796, none of them being a `KeyError` of `select` (metergroup.py:367-368). -/
def sMains (sel : List SessMeter) : Except Err (Option SNode) :=
  match sel with
  | [] => .error .keyError
  | _ :: _ =>
    match sel.filter (fun g => g.info.site) with
    | [] => .ok none
    | [g] => .ok (some (.elec g))
    | gs => .ok (some (.mains gs))

/-- `nilmtk.global_meter_group[id]`, metergroup.py:221-229. -/
def sGet (glob : List SessMeter) (id : SId) : Except Err (Option SNode) :=
  if id.inst = 0 then sMains (glob.filter (fun g => decide (g.id.building = id.building ∧ g.id.dataset = id.dataset)))
  else
    match glob.find? (fun g => decide (g.id = id)) with
    | none => .error .keyError
    | some g => .ok (some (.elec g))

/-- `upstream_meter`, elecmeter.py:101-135. -/
def sUpstream (glob : List SessMeter) (m : SessMeter) : Except Err (Option SNode) :=
  if m.info.site then .ok none
  else
    match m.info.submeterOf with
    | none => .error .valueError
    | some k =>
      if k < 0 then .error .valueError
      else if m.info.inBuilding ≠ none ∧ m.info.inBuilding ≠ some m.id.building then .error .notImplemented
      else sGet glob ⟨k, m.id.building, m.id.dataset⟩

end Nilmtk
