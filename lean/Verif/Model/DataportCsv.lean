import Verif.Model.DataSet
import Verif.Model.Redd
/-!
Model of nilmtk/dataset_converters/dataport/csv_converter.py.

A CSV file is given by the names of its columns and its rows; the reading of numbers and times is not modelled, nor are rooms, the other
entries of the metadata that do not depend on the readings, and the YAML files written at the end. The times of the rows of one building in
one chunk are distinct (`cleaned.join(use)` would repeat rows with equal times).
-/
namespace Nilmtk

/-- `COL_MAPPING`, csv_converter.py:34-106: the columns that are used, with the type of their appliance. -/
def dpMapping : List (String × Option String) :=
  [("air1", some "air conditioner"), ("air2", some "air conditioner"), ("air3", some "air conditioner"),
    ("airwindowunit1", some "air conditioner"), ("aquarium1", some "appliance"), ("bathroom1", some "sockets"),
    ("bathroom2", some "sockets"), ("bedroom1", some "sockets"), ("bedroom2", some "sockets"), ("bedroom3", some "sockets"),
    ("bedroom4", some "sockets"), ("bedroom5", some "sockets"), ("car1", some "electric vehicle"), ("car2", some "electric vehicle"),
    ("clotheswasher1", some "washing machine"), ("clotheswasher_dryg1", some "washer dryer"), ("diningroom1", some "sockets"),
    ("diningroom2", some "sockets"), ("dishwasher1", some "dish washer"), ("disposal1", some "waste disposal unit"),
    ("drye1", some "spin dryer"), ("dryg1", some "spin dryer"), ("freezer1", some "freezer"), ("furnace1", some "electric furnace"),
    ("furnace2", some "electric furnace"), ("garage1", some "sockets"), ("garage2", some "sockets"), ("grid", none),
    ("heater1", some "electric space heater"), ("heater2", some "electric space heater"), ("heater3", some "electric space heater"),
    ("housefan1", some "fan"), ("jacuzzi1", some "electric hot tub heater"), ("kitchen1", some "sockets"),
    ("kitchen2", some "sockets"), ("kitchenapp1", some "sockets"), ("kitchenapp2", some "sockets"), ("lights_plugs1", some "light"),
    ("lights_plugs2", some "light"), ("lights_plugs3", some "light"), ("lights_plugs4", some "light"), ("lights_plugs5", some "light"),
    ("lights_plugs6", some "light"), ("livingroom1", some "sockets"), ("livingroom2", some "sockets"),
    ("microwave1", some "microwave"), ("office1", some "sockets"), ("outsidelights_plugs1", some "sockets"),
    ("outsidelights_plugs2", some "sockets"), ("oven1", some "oven"), ("oven2", some "oven"),
    ("pool1", some "electric swimming pool heater"), ("pool2", some "electric swimming pool heater"), ("poollight1", some "light"),
    ("poolpump1", some "swimming pool pump"), ("pump1", some "water pump"), ("range1", some "stove"), ("refrigerator1", some "fridge"),
    ("refrigerator2", some "fridge"), ("security1", some "security alarm"), ("sewerpump1", some "water pump"),
    ("shed1", some "sockets"), ("solar", none), ("solar2", none), ("sprinkler1", some "garden sprinkler"),
    ("sumppump1", some "water pump"), ("utilityroom1", some "sockets"), ("venthood1", some "stove"),
    ("waterheater1", some "electric water heating appliance"), ("waterheater2", some "electric water heating appliance"),
    ("winecooler1", some "cold appliance"), ("wellpump1", some "water pump")]

/-- A row of a file: `localminute` in nanoseconds, `dataid`, and the readings in kW by column, `none` being NaN. -/
structure DpRow where
  time : Int
  dataid : Int
  cell : String → Option Rat

/-- A CSV file: the columns other than `localminute` and `dataid`, and the rows. -/
structure DpFile where
  header : List String
  rows : List DpRow

/-- A frame: its columns, and its rows with the readings in W; a row is NaN in columns that the frame does not have. -/
structure DpFrame where
  cols : List String
  rows : List (Int × (String → Option Rat))

/-- `DataFrame.empty`. -/
def DpFrame.isEmpty (f : DpFrame) : Bool := f.cols.isEmpty || f.rows.isEmpty

/-- `x + y` where NaN spreads. -/
def kwAdd : Option Rat → Option Rat → Option Rat
  | some a, some b => some (a + b)
  | _, _ => none

/-- `preprocess_chunk`, csv_converter.py:166-210: the frame, and whether the building has photovoltaics. -/
def preprocessChunk (header : List String) (rows : List DpRow) : Except Err (DpFrame × Bool) :=
  let cols := (header.filter (fun c => rows.any (fun r => (r.cell c).isSome))).filter (fun c => (dpMapping.map Prod.fst).contains c)
  if cols.contains "solar" || cols.contains "solar2" then
    if cols.contains "grid" then
      let gen : DpRow → Option Rat := fun r =>
        let g := if cols.contains "solar" then kwAdd (some 0) (r.cell "solar") else some 0
        if cols.contains "solar2" then kwAdd g (r.cell "solar2") else g
      let rest := ((cols.filter (fun c => c != "solar")).filter (fun c => c != "solar2")).filter (fun c => c != "grid")
      .ok (⟨rest ++ ["use"], rows.map (fun r => (r.time, fun c =>
        if c = "use" then (kwAdd (r.cell "grid") (gen r)).map (fun x => x * 1000)
        else if rest.contains c then (r.cell c).map (fun x => x * 1000) else none))⟩, true)
    else .error .keyError
  else
    .ok (⟨cols.map (fun c => if c = "grid" then "use" else c), rows.map (fun r => (r.time, fun c =>
      if c = "use" then (if cols.contains "grid" then (r.cell "grid").map (fun x => x * 1000) else none)
      else if cols.contains c && c != "grid" then (r.cell c).map (fun x => x * 1000) else none))⟩, false)

/-- `pd.concat([b_data, b_chunk])`. -/
def DpFrame.concat (f g : DpFrame) : DpFrame := ⟨f.cols ++ g.cols.filter (fun c => !f.cols.contains c), f.rows ++ g.rows⟩

/-- The chunks of `pd.read_csv(..., chunksize=n)`; `fuel` bounds their number. -/
def csvChunks {α : Type} (n : Nat) : Nat → List α → List (List α)
  | 0, _ => []
  | fuel + 1, rows => if rows = [] then [] else rows.take n :: csvChunks n fuel (rows.drop n)

/-- The loop over the chunks, csv_converter.py:272-293. -/
def extractLoop (header : List String) (b : Int) : List (List DpRow) → DpFrame × Bool → Except Err (DpFrame × Bool)
  | [], acc => .ok acc
  | chunk :: chunks, acc =>
    if (chunk.map DpRow.dataid).contains b then
      match preprocessChunk header (chunk.filter (fun r => decide (r.dataid = b))) with
      | .error e => .error e
      | .ok (f, pv) => extractLoop header b chunks (if acc.1.isEmpty then f else acc.1.concat f, acc.2 || pv)
    else extractLoop header b chunks acc

/-- `extract_building_data`, csv_converter.py:240-303, without the cache; the sort is stable. -/
def extractBuilding (n : Nat) (file : DpFile) (b : Int) (pv : Bool) : Except Err (DpFrame × Bool) :=
  match extractLoop file.header b (csvChunks n file.rows.length file.rows) (⟨[], []⟩, pv) with
  | .error e => .error e
  | .ok (f, pv') => .ok (if f.isEmpty then f else ⟨f.cols, f.rows.insertionSort (fun a b => a.1 ≤ b.1)⟩, pv')

/-- An entry of `appliances`. -/
structure DpAppliance where
  originalName : String
  meter : Nat
  type : String
  instanceNo : Nat
  deriving DecidableEq, Repr

/-- The metadata of a building: `instance`, `elec_meters` (true for the site meter), `appliances` and photovoltaics. -/
structure DpMeta where
  number : Option Nat
  meters : List (Nat × Bool)
  appliances : List DpAppliance
  photovoltaics : Bool
  deriving DecidableEq, Repr

/-- `hdf_store.put(str(key), m_data, format="table", append=True)`, csv_converter.py:342. -/
def appendTable (st : RawStore (Option Rat)) (key : Str) (rows : List (Int × Option Rat)) : RawStore (Option Rat) :=
  st.put key ⟨[("power", "active")], ((st key).elim [] RawTable.rows) ++ rows⟩

/-- The loop over the columns, csv_converter.py:334-364; `m` is `m_id + 1`. -/
def writeColumns (number : Nat) (rows : List (Int × (String → Option Rat))) :
    List String → Nat → RawStore (Option Rat) × DpMeta → (RawStore (Option Rat) × DpMeta) × Option Err
  | [], _, s => (s, none)
  | c :: cs, m, (st, b) =>
    match Key.ofNumbers number (some (m : Int)) with
    | .error e => ((st, b), some e)
    | .ok key =>
      match key.repr with
      | .error e => ((st, b), some e)
      | .ok text =>
        let st' := appendTable st text (rows.map (fun r => (r.1, r.2 c)))
        if c = "use" then writeColumns number rows cs (m + 1) (st', { b with meters := orderedSet b.meters m true })
        else
          match dpMapping.lookup c with
          | some (some type) =>
            let app : DpAppliance := ⟨c, m, type, 1 + b.appliances.countP (fun o => decide (o.type = type))⟩
            writeColumns number rows cs (m + 1)
              (st', { b with appliances := b.appliances ++ [app], meters := orderedSet b.meters m false })
          | _ => ((st', b), some .keyError)

/-- What is known while converting: the store, `nilmtk_metadata` and `csv_building_cache`. -/
structure DpState where
  store : RawStore (Option Rat)
  buildings : List (Int × DpMeta)
  cache : List (Str × List Int)

/-- `write_meter_data`, csv_converter.py:308-366, after `nilmtk_metadata[b_id] = b_metadata`. -/
def writeMeterData (s : DpState) (b : Int) (f : DpFrame) (m : DpMeta) : (DpState × DpMeta) × Option Err :=
  let buildings := orderedSet s.buildings b m
  let number := m.number.getD ((buildings.map Prod.fst).idxOf b + 1)
  let r := writeColumns number f.rows f.cols 1 (s.store, { m with number := some number })
  ((⟨r.1.1, orderedSet buildings b r.1.2, s.cache⟩, r.1.2), r.2)

/-- The loop over the files for one building, csv_converter.py:406-416; `m` is `b_metadata`. -/
def dpFiles (n : Nat) (read : Str → Option DpFile) (b : Int) : List Str → DpMeta → DpState → DpState × Option Err
  | [], _, s => (s, none)
  | name :: names, m, s =>
    if ((s.cache.lookup name).elim true (fun l => l.contains b)) then
      match read name with
      | none => (s, some .fileNotFound)
      | some file =>
        let s := if (s.cache.lookup name).isNone then { s with cache := s.cache ++ [(name, file.rows.map DpRow.dataid)] } else s
        match extractBuilding n file b m.photovoltaics with
        | .error e => (s, some e)
        | .ok (f, pv) =>
          let m := { m with photovoltaics := pv }
          if f.isEmpty then dpFiles n read b names m s
          else
            match writeMeterData s b f m with
            | ((s', _), some e) => (s', some e)
            | ((s', m'), none) => dpFiles n read b names m' s'
    else dpFiles n read b names m s

/-- The loop over the buildings, csv_converter.py:404-416. -/
def dpBuildings (n : Nat) (read : Str → Option DpFile) (names : List Str) : List Int → DpState → DpState × Option Err
  | [], s => (s, none)
  | b :: bs, s =>
    match dpFiles n read b names ⟨none, [], [], false⟩ s with
    | (s', some e) => (s', some e)
    | (s', none) => dpBuildings n read names bs s'

/-- `convert_dataport`, csv_converter.py:369-418: `n` is the chunk size, `names` the sorted names of the files, `dataids` the buildings of
`metadata.csv`; the file is created anew. -/
def convertDataport (n : Nat) (read : Str → Option DpFile) (names : List Str) (dataids : List Int) : DpState × Option Err :=
  dpBuildings n read names dataids ⟨fun _ => none, [], []⟩

end Nilmtk
