import Verif.Model.DataportCsv
import Verif.Model.Eco
import Verif.Model.Experiment
/-!
Model of `download_dataport` in nilmtk/dataset_converters/dataport/download_dataport.py: the tables of the database are fetched in chunks of
ten days and stored in an HDF5 file.

The database is given by what its queries return. All times are read on one clock, that of the time column; `tz_localize('US/Central')`
is an input, which fails for times that do not exist or exist twice. Failing connections, printing, the rooms of appliances, the entries
of the metadata that are always the same, and `dataset.yaml` are not modelled. The row order among equal times is that of the table.
-/
namespace Nilmtk

/-- `feed_mapping`, download_dataport.py:94-171: the feeds with the type of their appliance. -/
def feedMapping : List (String × Option String) :=
  [("air1", some "air conditioner"), ("air2", some "air conditioner"), ("air3", some "air conditioner"),
    ("airwindowunit1", some "air conditioner"), ("aquarium1", some "appliance"), ("bathroom1", some "sockets"),
    ("bathroom2", some "sockets"), ("bedroom1", some "sockets"), ("bedroom2", some "sockets"), ("bedroom3", some "sockets"),
    ("bedroom4", some "sockets"), ("bedroom5", some "sockets"), ("battery1", none), ("car1", some "electric vehicle"), ("circpump1", none),
    ("clotheswasher1", some "washing machine"), ("clotheswasher_dryg1", some "washer dryer"), ("diningroom1", some "sockets"),
    ("diningroom2", some "sockets"), ("dishwasher1", some "dish washer"), ("disposal1", some "waste disposal unit"),
    ("drye1", some "spin dryer"), ("dryg1", some "spin dryer"), ("freezer1", some "freezer"), ("furnace1", some "electric furnace"),
    ("furnace2", some "electric furnace"), ("garage1", some "sockets"), ("garage2", some "sockets"), ("grid", none),
    ("heater1", some "electric space heater"), ("heater2", some "electric space heater"), ("heater3", some "electric space heater"),
    ("housefan1", some "electric space heater"), ("icemaker1", some "appliance"), ("jacuzzi1", some "electric hot tub heater"),
    ("kitchen1", some "sockets"), ("kitchen2", some "sockets"), ("kitchenapp1", some "sockets"), ("kitchenapp2", some "sockets"),
    ("lights_plugs1", some "light"), ("lights_plugs2", some "light"), ("lights_plugs3", some "light"), ("lights_plugs4", some "light"),
    ("lights_plugs5", some "light"), ("lights_plugs6", some "light"), ("livingroom1", some "sockets"), ("livingroom2", some "sockets"),
    ("microwave1", some "microwave"), ("office1", some "sockets"), ("outsidelights_plugs1", some "sockets"),
    ("outsidelights_plugs2", some "sockets"), ("oven1", some "oven"), ("oven2", some "oven"),
    ("pool1", some "electric swimming pool heater"), ("pool2", some "electric swimming pool heater"), ("poollight1", some "light"),
    ("poolpump1", some "electric swimming pool heater"), ("pump1", some "appliance"), ("range1", some "stove"),
    ("refrigerator1", some "fridge"), ("refrigerator2", some "fridge"), ("security1", some "security alarm"), ("sewerpump1", none),
    ("shed1", some "sockets"), ("solar", none), ("solar2", none), ("sprinkler1", some "appliance"), ("sumppump1", none),
    ("utilityroom1", some "sockets"), ("venthood1", some "appliance"), ("waterheater1", some "electric water heating appliance"),
    ("waterheater2", some "electric water heating appliance"), ("wellpump1", none), ("winecooler1", some "appliance"),
    ("leg1v", none), ("leg2v", none)]

/-- `feed_ignore`, download_dataport.py:173-174. -/
def feedIgnore : List String :=
  ["solar", "solar2", "grid", "leg1v", "leg2v", "battery1", "circpump1", "sewerpump1", "sumppump1", "wellpump1"]

/-- The tables `database_assert` accepts, download_dataport.py:177-201. -/
def dbTables : List String :=
  ["eg_angle_15min", "eg_angle_1hr", "eg_angle_1min", "eg_angle_1s", "eg_apparentpower_15min", "eg_apparentpower_1hr",
    "eg_apparentpower_1min", "eg_apparentpower_1s", "eg_current_15min", "eg_current_1hr", "eg_current_1min", "eg_current_1s",
    "eg_realpower_15min", "eg_realpower_1hr", "eg_realpower_1min", "eg_realpower_1s", "eg_thd_15min", "eg_thd_1hr", "eg_thd_1min",
    "eg_thd_1s", "eg_realpower_1s_40homes_dataset"]

/-- The database: the names of the views of the schema in order; the feeds and the rows of the selected table; the buildings of a view;
the first and last times that `other_datasets.metadata` has for a building, at one second (true) or at one minute. -/
structure DpDatabase where
  views : List Str
  header : List String
  rows : List DpRow
  buildings : Str → List Int
  range : Bool → Int → Option (Int × Int)

/-- The metadata of a building: `instance`, `original_name`, `elec_meters` (true for the site meter) and `appliances`. -/
structure DbMeta where
  number : Nat
  originalName : Int
  meters : List (Nat × Bool)
  appliances : List DpAppliance
  deriving DecidableEq, Repr

/-- The store and the files `building<n>.yaml` of the temporary directory, by number. -/
structure DbState where
  store : RawStore (Option Rat)
  yaml : List (Nat × DbMeta)

/-- The HDF5 file: its tables and, if they have been written, the metadata of the buildings. -/
structure DbFile where
  store : RawStore (Option Rat)
  metadata : Option (List (Nat × DbMeta))

/-- `name.find(text) > 0`. -/
def findsInside (text name : Str) : Bool := hasText text name && !text.isPrefixOf name

/-- The reading of the times and `feeds_dataframe.mul(1000)`, download_dataport.py:578-594. -/
def dbFrame (localize : Int → Option Int) (table : Str) (rows : List DpRow) : Except Err (List (Int × (String → Option Rat))) :=
  mapE (fun r =>
    match localize r.time with
    | none => .error .exception
    | some t => .ok (t, fun c => (r.cell c).map (fun x => if findsInside "_realpower_".toList table then x * 1000 else x))) rows

/-- The loop over the feeds, download_dataport.py:605-646; `m` is `meter_id`. -/
def dbColumns (number : Nat) (frame : List (Int × (String → Option Rat))) :
    List String → Nat → RawStore (Option Rat) × DbMeta → (RawStore (Option Rat) × DbMeta) × Option Err
  | [], _, s => (s, none)
  | c :: cs, m, (st, b) =>
    if frame.any (fun r => (r.2 c).isSome) && !feedIgnore.contains c then
      match Key.ofNumbers number (some (m : Int)) with
      | .error e => ((st, b), some e)
      | .ok key =>
        match key.repr with
        | .error e => ((st, b), some e)
        | .ok text =>
          let st := appendTable st text (frame.map (fun r => (r.1, r.2 c)))
          if c = "use" then dbColumns number frame cs (m + 1) (st, { b with meters := b.meters ++ [(m, true)] })
          else
            let b := { b with meters := b.meters ++ [(m, false)] }
            match feedMapping.lookup c with
            | some (some type) =>
              let app : DpAppliance := ⟨c, m, type, b.appliances.countP (fun o => decide (o.type = type)) + 1⟩
              dbColumns number frame cs (m + 1) (st, { b with appliances := b.appliances ++ [app] })
            | _ => ((st, b), some .keyError)
    else dbColumns number frame cs m (st, b)

/-- `_dataport_dataframe_to_hdf`, download_dataport.py:568-654. -/
def dbToHdf (localize : Int → Option Int) (table : Str) (header : List String) (number : Nat) (dataid : Int) (rows : List DpRow)
    (s : DbState) : DbState × Option Err :=
  match dbFrame localize table rows with
  | .error e => (s, some e)
  | .ok frame =>
    match dbColumns number frame header 1 (s.store, ⟨number, dataid, [], []⟩) with
    | ((st, _), some e) => (⟨st, s.yaml⟩, some e)
    | ((st, b), none) => (⟨st, orderedSet s.yaml number b⟩, none)

/-- `datetime.timedelta(10)`, download_dataport.py:500, and a second. -/
def dbChunkSize : Int := 10 * 86400 * 1000000000
def dbSecond : Int := 1000000000

/-- The loop over the chunks of time, download_dataport.py:498-544: the bounds of the queries from `start` on; `fuel` bounds their number. -/
def dbWindows (stop : Int) : Nat → Int → List (Int × Int)
  | 0, _ => []
  | fuel + 1, start =>
    if start < stop then
      (start, (if start + dbChunkSize > stop then stop else start + dbChunkSize) - dbSecond) :: dbWindows stop fuel (start + dbChunkSize)
    else []

/-- `strftime('%Y-%m-%d %H:%M:%S')`, which drops the parts of a second, download_dataport.py:510. -/
def dbFormat (t : Int) : Int := t / dbSecond * dbSecond

/-- The query for a chunk, download_dataport.py:511-520. -/
def dbQuery (rows : List DpRow) (dataid lo hi : Int) : List DpRow :=
  (rows.insertionSort (fun a b => a.time ≤ b.time)).filter
    (fun r => decide (r.dataid = dataid) && decide (dbFormat lo ≤ r.time) && decide (r.time ≤ dbFormat hi))

/-- What is done for one of the tables, download_dataport.py:440-544. -/
def dbTable (localize : Int → Option Int) (db : DpDatabase) (table : Str) (number : Nat) (dataid : Int) (period : Option Int × Option Int)
    (s : DbState) : DbState × Option Err :=
  match db.range (findsInside "_1s".toList table) dataid, period with
  | none, _ => (s, none)
  | some (first, last), (some start, some stop) =>
    if start > stop then (s, none)
    else ecoLoop (fun w s => dbToHdf localize table db.header number dataid (dbQuery db.rows dataid w.1 w.2) s)
      (dbWindows (min stop last) ((min stop last - max start first) / dbChunkSize + 1).toNat (max start first)) s
  | some _, _ => (s, some .typeError)

/-- `database_tables`, download_dataport.py:412: the views whose name has the selected table in it. -/
def dbViews (db : DpDatabase) (table : Str) : List Str := db.views.filter (fun v => hasText table v)

/-- `buildings_to_load`, download_dataport.py:413-426: those of the dict, or else all of the tables; without tables the query is no SQL. -/
def dbBuildings (db : DpDatabase) (table : Str) (periods : List (Int × Option Int × Option Int)) : Except Err (List Int) :=
  if periods ≠ [] then .ok (periods.map Prod.fst)
  else if dbViews db table = [] then .error .exception
  else .ok (((dbViews db table).flatMap db.buildings).eraseDups.insertionSort (fun a b => a ≤ b))

/-- The loop over the buildings, download_dataport.py:429-544. -/
def dbLoop (localize : Int → Option Int) (db : DpDatabase) (table : Str) (periods : List (Int × Option Int × Option Int))
    (buildings : List Int) (s : DbState) : DbState × Option Err :=
  ecoLoop (fun b s => ecoLoop (fun _ s => dbTable localize db table (buildings.idxOf b + 1) b ((periods.lookup b).getD (none, none)) s)
    (dbViews db table) s) buildings s

/-- `download_dataport`, download_dataport.py:325-565, into a file that is `old` before; `periods` is empty for `None`. -/
def downloadDataport (localize : Int → Option Int) (db : DpDatabase) (table : String) (periods : List (Int × Option Int × Option Int))
    (old : DbFile) : DbFile × Option Err :=
  if table ∈ dbTables then
    match dbBuildings db table.toList periods with
    | .error e => (⟨fun _ => none, none⟩, some e)
    | .ok buildings =>
      match dbLoop localize db table.toList periods buildings ⟨fun _ => none, []⟩ with
      | (s, some e) => (⟨s.store, none⟩, some e)
      | (s, none) => (⟨s.store, some s.yaml⟩, none)
  else (old, some .assertionError)

end Nilmtk
