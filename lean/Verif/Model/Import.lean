import Verif.Model.Group
import Verif.Model.Experiment
/-!
Model of `MeterGroup.import_metadata`, `nilmtk/metergroup.py`: how the meters of a building and the appliances attached to them are
built from the metadata.
-/
namespace Nilmtk

/-- The metadata of a meter that is used: `site_meter`, `disabled`; and the time frame of its data. -/
structure MeterMeta where
  site : Bool
  disabled : Bool
  frame : TF
  deriving DecidableEq, Repr

/-- What `import_metadata` builds: `self.meters`, and the `appliances` of each `ElecMeter`. Objects are represented by their
identifiers, which are distinct because the keys of the dictionary `elec_meters` are. -/
structure ImportSt (α : Type) where
  meters : List Meter
  apps : MeterId → List α

/-- The `ElecMeter` made at metergroup.py:95-98. -/
def mkElec (b : Int) (d : String) (p : Int × MeterMeta) : Meter := .elec ⟨⟨.one p.1, b, d⟩, p.2.site, p.2.frame⟩

mutual
/-- `matches({'building': b, 'dataset': d})` during the import, where all the meters belong to that building: true of an
`ElecMeter`, and of a group with such a meter (metergroup.py:299-303). -/
def Meter.inBuilding : Meter → Bool
  | .elec _ => true
  | .group _ ms _ => Meter.anyInBuilding ms
/-- The loop of `MeterGroup.matches`. -/
def Meter.anyInBuilding : List Meter → Bool
  | [] => false
  | m :: ms => m.inBuilding || Meter.anyInBuilding ms
end

/-- `self[ElecMeterID(instance=i, ...)]` during the import, metergroup.py:210-230: instance 0 stands for the mains of the
selected meters (`select` raises `KeyError` when there are none). -/
def importGet (b : Int) (d : String) (ms : List Meter) (i : Int) : Except Err (Option Meter) :=
  if i = 0 then
    match ms.filter Meter.inBuilding with
    | [] => .error .keyError
    | sel => mains sel
  else
    match findMeter ⟨.one i, b, d⟩ ms with
    | .error e => .error e
    | .ok m => .ok (some m)

/-- `meter.appliances.append(appliance)`. The property `appliances` of a group returns a new list (metergroup.py:486-491), which is
then dropped. -/
def attach {α : Type} (a : α) (apps : MeterId → List α) : Meter → MeterId → List α
  | .elec e => fun id => if id = e.id then apps id ++ [a] else apps id
  | .group _ _ _ => apps

/-- The loop `for meter in metergroup.meters: meter.appliances.append(appliance)`, metergroup.py:114-115. -/
def attachAll {α : Type} (a : α) (apps : MeterId → List α) (ms : List Meter) : MeterId → List α :=
  ms.foldl (attach a) apps

/-- The loop at metergroup.py:122-127 over the meters found; `None` is not in the list. -/
def takeOut {α : Type} (a : α) : ImportSt α → List (Option Meter) → Except Err (ImportSt α)
  | st, [] => .ok st
  | _, none :: _ => .error .valueError
  | st, some m :: rest =>
    match pyRemove m st.meters with
    | .error e => .error e
    | .ok ms => takeOut a ⟨ms, attach a st.apps m⟩ rest

/-- One appliance with its list of meters, metergroup.py:101-128. -/
def importAppliance {α : Type} (b : Int) (d : String) (st : ImportSt α) (a : α × List Int) : Except Err (ImportSt α) :=
  match a.2 with
  | [i] =>
    match importGet b d st.meters i with
    | .error e => .error e
    | .ok none => .error .attributeError
    | .ok (some (.group _ ms _)) => .ok { st with apps := attachAll a.1 st.apps ms }
    | .ok (some (.elec e)) => .ok { st with apps := attach a.1 st.apps (.elec e) }
  | is =>
    match mapE (importGet b d st.meters) is with
    | .error e => .error e
    | .ok found =>
      match takeOut a.1 st found with
      | .error e => .error e
      | .ok st' => .ok { st' with meters := st'.meters ++ [mkGroup (found.filterMap id)] }

/-- The loop over the appliances, metergroup.py:101-128. -/
def importAppliances {α : Type} (b : Int) (d : String) : ImportSt α → List (α × List Int) → Except Err (ImportSt α)
  | st, [] => .ok st
  | st, a :: as =>
    match importAppliance b d st a with
    | .error e => .error e
    | .ok st' => importAppliances b d st' as

/-- `isinstance(m, ElecMeter) and m.metadata.get('disabled')`, metergroup.py:131-133. -/
def toDisable (elec : List (Int × MeterMeta)) (m : Meter) : Bool :=
  match m with
  | .elec e => elec.any (fun p => decide (e.id.inst = .one p.1) && p.2.disabled)
  | .group _ _ _ => false

/-- `MeterGroup.import_metadata`, metergroup.py:66-136, of a new group: `meters`, `disabled_meters`, and the appliances of each
meter. `elec` lists the dictionary `elec_meters`, each appliance comes with its list of meters. Not modelled: warnings, the meter
devices, the global meter group, appliances without the key `meters`. -/
def importMetadata {α : Type} (b : Int) (d : String) (elec : List (Int × MeterMeta)) (as : List (α × List Int)) :
    Except Err (List Meter × List Meter × (MeterId → List α)) :=
  match importAppliances b d ⟨elec.map (mkElec b d), fun _ => []⟩ as with
  | .error e => .error e
  | .ok st =>
    match moveMeters (st.meters.filter (toDisable elec)) st.meters [] with
    | .error e => .error e
    | .ok (ms, ds) => .ok (ms, ds, st.apps)

end Nilmtk
