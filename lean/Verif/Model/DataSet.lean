import Verif.Model.Import
import Verif.Model.HDF
import Verif.Model.Key
/-!
Model of `DataSet` (nilmtk/dataset.py) and `Building` (nilmtk/building.py): opening a dataset, and setting the window through
which all of its data are loaded.

The metadata are those that are used. Simplifications: the dataset has a name and every building an instance. The time zone
database is an input. Not modelled: warnings, plots, `describe`, a window given as a `TimeFrame`.
-/
namespace Nilmtk

/-- The metadata of a building, building.py:25-31. -/
structure BuildingMeta (α : Type) where
  inst : Int
  dataset : Option String
  elec : List (Int × MeterMeta)
  appliances : List (α × List Int)

/-- A `Building`: its identifier, and the meters, disabled meters and appliances of its `elec`. -/
structure Bldg (α : Type) where
  inst : Int
  dataset : String
  meters : List Meter
  disabled : List Meter
  apps : MeterId → List α

/-- A `DataStore` as far as it is used: the metadata of the dataset; what is below the root, with its metadata (`none`: there
are none); the tables; the window. -/
structure DsStore (α ρ : Type) where
  name : String
  timezone : Option String
  children : List (Str × Option (BuildingMeta α))
  tables : Str → Option (List (Row ρ))
  window : TF

/-- A `DataSet`: `self.store` with the metadata taken from it, and the dictionary `self.buildings`. -/
structure DataSet (α ρ : Type) where
  store : Option (DsStore α ρ)
  buildings : List (Int × Bldg α)

/-- `DataSet()`, dataset.py:40-42. -/
def DataSet.new {α ρ : Type} : DataSet α ρ := ⟨none, []⟩

/-- `d[k] = v` of an `OrderedDict`. -/
def orderedSet {κ ν : Type} [DecidableEq κ] (d : List (κ × ν)) (k : κ) (v : ν) : List (κ × ν) :=
  if k ∈ d.map Prod.fst then d.map (fun e => if e.1 = k then (k, v) else e) else d ++ [(k, v)]

/-- `Building.import_metadata`, building.py:25-31, of a new building. A node without metadata is an `AttributeError`
(hdfdatastore.py:186). -/
def importBuilding {α : Type} (dataset : String) (md : Option (BuildingMeta α)) : Except Err (Bldg α) :=
  match md with
  | none => .error .attributeError
  | some b =>
    match importMetadata b.inst (b.dataset.getD dataset) b.elec b.appliances with
    | .error e => .error e
    | .ok (ms, ds, apps) => .ok ⟨b.inst, b.dataset.getD dataset, ms, ds, apps⟩

/-- The order of Python's strings. -/
def strLe (a b : Str) : Bool :=
  match a, b with
  | [], _ => true
  | _ :: _, [] => false
  | c :: cs, d :: ds => if c = d then strLe cs ds else decide (c.toNat < d.toNat)

/-- The loop of `_init_buildings`, dataset.py:66-70: the dictionary, and the error that ended the loop. -/
def initLoop {α : Type} (dataset : String) :
    List (Str × Option (BuildingMeta α)) → List (Int × Bldg α) → List (Int × Bldg α) × Option Err
  | [], d => (d, none)
  | c :: cs, d =>
    match importBuilding dataset c.2 with
    | .error e => (d, some e)
    | .ok b => initLoop dataset cs (orderedSet d b.inst b)

/-- `import_metadata` with `_init_buildings`, dataset.py:47-70. -/
def DataSet.importMetadata {α ρ : Type} (d : DataSet α ρ) (store : DsStore α ρ) : DataSet α ρ × Option Err :=
  let children := store.children.insertionSort (fun a b => strLe a.1 b.1 = true)
  let (bs, e) := initLoop store.name children d.buildings
  (⟨some store, bs⟩, e)

/-- `DataSet(filename)`, dataset.py:30-44, given the store. -/
def DataSet.opened {α ρ : Type} (store : DsStore α ρ) : DataSet α ρ × Option Err := DataSet.new.importMetadata store

/-- `elecs`, dataset.py:139-140, with the instance of the building of each. -/
def DataSet.elecs {α ρ : Type} (d : DataSet α ρ) : List (Int × List Meter) := d.buildings.map (fun b => (b.2.inst, b.2.meters))

/-- A `pd.Timestamp`: without time zone (the time on the clock), or with. -/
inductive Stamp
  | naive (local_ : Int)
  | aware (utc : Int)
  deriving DecidableEq, Repr

/-- `new_end <= self.start`, timeframe.py:95: the two kinds cannot be compared. -/
def Stamp.le : Stamp → Stamp → Except Err Bool
  | .naive a, .naive b => .ok (decide (a ≤ b))
  | .aware a, .aware b => .ok (decide (a ≤ b))
  | _, _ => .error .typeError

/-- `tz_localize(tz)`, timeframe.py:38-41: `TypeError` if there is a time zone already. -/
def Stamp.localize (tzdb : String → Int → Except Err Int) (tz : String) : Stamp → Except Err Int
  | .naive t => tzdb tz t
  | .aware _ => .error .typeError

/-- `tz_localize` of a value that may be `None`. -/
def localizeOpt (tzdb : String → Int → Except Err Int) (tz : String) : Option Stamp → Except Err (Option Int)
  | none => .ok none
  | some s =>
    match s.localize tzdb tz with
    | .error e => .error e
    | .ok t => .ok (some t)

/-- `TimeFrame(start, end, tz)`, timeframe.py:29-41. -/
def windowFrame (tzdb : String → Int → Except Err Int) (tz : String) (start stop : Option Stamp) : Except Err TF :=
  let order : Except Err Bool :=
    match start, stop with
    | some s, some e => e.le s
    | _, _ => .ok false
  match order with
  | .error e => .error e
  | .ok true => .error .valueError
  | .ok false =>
    match localizeOpt tzdb tz start with
    | .error e => .error e
    | .ok s =>
      match localizeOpt tzdb tz stop with
      | .error e => .error e
      | .ok e => .ok (TF.mk' s e)

/-- `set_window`, dataset.py:72-87. -/
def DataSet.setWindow {α ρ : Type} (tzdb : String → Int → Except Err Int) (d : DataSet α ρ) (start stop : Option Stamp) :
    DataSet α ρ × Option Err :=
  match d.store with
  | none => (d, some .runtimeError)
  | some st =>
    match st.timezone with
    | none => (d, some .runtimeError)
    | some tz =>
      match windowFrame tzdb tz start stop with
      | .error e => (d, some e)
      | .ok w => ({ d with store := some { st with window := w } }, none)

/-- `store.load(key, sections=..., n_look_ahead_rows=..., chunksize=...)` of the dataset's HDF store, which all its meters
share; hdfdatastore.py:31-148. -/
def DataSet.load {α ρ : Type} (d : DataSet α ρ) (key : Str) (sections : Option (List TF)) (nLook cs : Int) :
    Gen (Chunk ρ) :=
  match d.store with
  | none => Gen.raise .attributeError
  | some st => (hdfLoad (st.tables key) st.window sections nLook cs).1

end Nilmtk
