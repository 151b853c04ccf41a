import Verif.Model.Convert
import Verif.Model.CSV
import Verif.Model.Store
import Verif.Model.CO
/-!
Model of `CSVDataStore` (`nilmtk/datastore/csvdatastore.py`) as a store that is written and read: `put`, `append`, `remove`,
`__getitem__`, `get_timeframe`, `save_metadata`, `load_metadata`.

The directory of the store is a set of directories and files, by the components of their relative paths. A frame has columns
with two levels; `named` tells whether its index has a name. Text is not modelled below the level of lines.
-/
namespace Nilmtk

/-- A line of a file: the two lines of the header, the line with the name of the index, or a row. -/
inductive DiskLine (α : Type) where
  | level0
  | level1
  | indexName
  | data (r : Row α)
  deriving DecidableEq, Repr

/-- A frame to be written: its rows, and whether the index has a name. -/
structure DiskFrame (α : Type) where
  rows : List (Row α)
  named : Bool

/-- What `to_csv(header=True)` of pandas writes for a frame with two levels of columns. -/
def DiskFrame.dump {α : Type} (f : DiskFrame α) : List (DiskLine α) :=
  [.level0, .level1] ++ (if f.named then [.indexName] else []) ++ f.rows.map .data

/-- A metadata value: a text or something else. `None` is not a value here. -/
inductive MetaVal (V : Type) where
  | text (s : Str)
  | other (v : V)
  deriving DecidableEq, Repr

/-- The metadata of a building: `elec_meters` (by instance) and the rest. -/
structure DiskBuilding (V : Type) where
  meters : Option (List (Int × List (String × MetaVal V)))
  rest : List (String × MetaVal V)
  deriving DecidableEq, Repr

/-- The directory of a store. `datasetYaml` and `devicesYaml` are the files `dataset.yaml` and `meter_devices.yaml`. -/
structure CsvDisk (V α : Type) where
  dirs : List (List Str)
  files : List (List Str × List (DiskLine α))
  datasetYaml : Option (List (String × MetaVal V))
  devicesYaml : Option (MetaVal V)
  buildingYaml : List (Int × DiskBuilding V)

/-- `CSVDataStore.__init__`, csvdatastore.py:24-36, for a directory that does not exist: it is made, and the directory of the
metadata in it. -/
def CsvDisk.fresh {V α : Type} : CsvDisk V α := ⟨[[]], [], none, none, []⟩

/-- `_key_to_abs_path`, csvdatastore.py:236-246, as components relative to the directory of the store. -/
def diskPath (key : Str) : Except Err (List Str) :=
  match csvPath key with
  | .error e => .error e
  | .ok p => .ok (hdfComponents p)

/-- Some ancestor of the path is a file, so that it cannot be created as a directory. -/
def CsvDisk.blocked {V α : Type} (d : CsvDisk V α) (p : List Str) : Bool :=
  p.dropLast.inits.any (fun q => (d.files.map Prod.fst).contains q)

/-- Open a file for writing after making its directory, csvdatastore.py:110-117 and 122-129; `f` gives the new content from
the old one. A path that is a directory (`IsADirectoryError`) or lies below a file (`NotADirectoryError`,
`FileExistsError`) raises; so does the root (after the root was removed a file could be made in its place, which is outside the
model). -/
def CsvDisk.write {V α : Type} (d : CsvDisk V α) (key : Str) (f : List (DiskLine α) → List (DiskLine α)) :
    Except Err (CsvDisk V α) :=
  match diskPath key with
  | .error e => .error e
  | .ok p =>
    if p = [] ∨ d.blocked p = true ∨ d.dirs.contains p = true then .error .exception
    else .ok { d with
      dirs := d.dirs ++ (p.dropLast.inits.filter (fun q => !d.dirs.contains q))
      files := setEntry p (f ((d.files.lookup p).getD [])) d.files }

/-- `CSVDataStore.put`, csvdatastore.py:119-129 (mode `w`). -/
def csvPut {V α : Type} (d : CsvDisk V α) (key : Str) (df : DiskFrame α) : Except Err (CsvDisk V α) :=
  d.write key (fun _ => df.dump)

/-- `CSVDataStore.append`, csvdatastore.py:107-117 (mode `a`, the header is written again). -/
def csvAppend {V α : Type} (d : CsvDisk V α) (key : Str) (df : DiskFrame α) : Except Err (CsvDisk V α) :=
  d.write key (fun old => old ++ df.dump)

/-- `CSVDataStore.remove`, csvdatastore.py:131-137: a file, or a directory with all that is below it (for the root also the
metadata). -/
def csvRemove {V α : Type} (d : CsvDisk V α) (key : Str) : Except Err (CsvDisk V α) :=
  match diskPath key with
  | .error e => .error e
  | .ok p =>
    if (d.files.map Prod.fst).contains p then .ok { d with files := d.files.filter (fun e => !(e.1 == p)) }
    else if d.dirs.contains p then
      .ok { d with
        dirs := d.dirs.filter (fun q => !p.isPrefixOf q)
        files := d.files.filter (fun e => !p.isPrefixOf e.1)
        datasetYaml := if p = [] then none else d.datasetYaml
        devicesYaml := if p = [] then none else d.devicesYaml
        buildingYaml := if p = [] then [] else d.buildingYaml }
    else .error .fileNotFound

/-- `CSVDataStore.__getitem__`, csvdatastore.py:38-45: the lines taken as rows by `pd.read_csv(file)`, which takes the first
line as the header. -/
def csvGetItem {V α : Type} (d : CsvDisk V α) (key : Str) : Except Err (List (DiskLine α)) :=
  match diskPath key with
  | .error e => .error e
  | .ok p =>
    match d.files.lookup p with
    | none => .error .keyError
    | some lines => .ok (lines.drop 1)

/-- The lines taken as rows by `pd.read_csv(file, index_col=0, header=[0, 1])`, csvdatastore.py:62-66: what follows the first
two lines and a line with the name of the index. -/
def readHeader {α : Type} (lines : List (DiskLine α)) : List (DiskLine α) :=
  match lines.drop 2 with
  | .indexName :: rest => rest
  | rest => rest

/-- The row in a line; a header line among the rows is no row. -/
def DiskLine.row? {α : Type} : DiskLine α → Option (Row α)
  | .data r => some r
  | _ => none

/-- All lines are rows; `none` if some line is not (then the index and the columns are read as text). -/
def allRows {α : Type} : List (DiskLine α) → Option (List (Row α))
  | [] => some []
  | l :: ls =>
    match l.row?, allRows ls with
    | some r, some rs => some (r :: rs)
    | _, _ => none

/-- The rows of the table at a key: `none` if there is no file; `some none` if the file holds more than a header and rows. -/
def csvTable {V α : Type} (d : CsvDisk V α) (key : Str) : Except Err (Option (Option (List (Row α)))) :=
  match diskPath key with
  | .error e => .error e
  | .ok p => .ok ((d.files.lookup p).map (fun lines => allRows (readHeader lines)))

/-- `CSVDataStore.get_timeframe`, csvdatastore.py:215-231, for a file of rows: a file without rows raises `IndexError`. -/
def csvTimeframe {V α : Type} (d : CsvDisk V α) (window : TF) (key : Str) : Except Err TF :=
  match csvTable d key with
  | .error e => .error e
  | .ok none => .error .fileNotFound
  | .ok (some none) => .error .valueError
  | .ok (some (some rows)) =>
    match rows.head?, rows.getLast? with
    | some a, some b =>
      match TF.ctor (some a.1) (some b.1) with
      | .error e => .error e
      | .ok tf => .ok (window.intersection tf)
    | _, _ => .error .indexError

/-- `CSVDataStore.save_metadata('/', metadata)`, csvdatastore.py:166-179. -/
def csvSaveRoot {V α : Type} (d : CsvDisk V α) (m : List (String × MetaVal V)) : Except Err (CsvDisk V α) :=
  match m.lookup "meter_devices" with
  | none => .error .keyError
  | some devices => .ok { d with
      datasetYaml := some (m.filter (fun e => e.1 ≠ "meter_devices"))
      devicesYaml := some devices }

/-- `CSVDataStore.load_metadata('/')`, csvdatastore.py:142-146. `_load_file` of nilm_metadata gives `None` for a missing
file: `TypeError` for `dataset.yaml`; a missing `meter_devices.yaml` alone is outside the model (`exception`). -/
def csvLoadRoot {V α : Type} (d : CsvDisk V α) : Except Err (List (String × MetaVal V)) :=
  match d.datasetYaml with
  | none => .error .typeError
  | some m =>
    match d.devicesYaml with
    | none => .error .exception
    | some devices => .ok (dictSet m "meter_devices" devices)

/-- `CSVDataStore.save_metadata(key, metadata)` for a building, csvdatastore.py:180-187. -/
def csvSaveBuilding {V α : Type} (d : CsvDisk V α) (key : Str) (m : DiskBuilding V) : Except Err (CsvDisk V α) :=
  match Key.parse key with
  | .error e => .error e
  | .ok k =>
    match k.meter with
    | some _ => .error .assertionError
    | none => .ok { d with buildingYaml := setEntry k.building m d.buildingYaml }

/-- `'/building{:d}/elec/meter{:d}'.format(building, meter_instance)`, csvdatastore.py:157-158; instances are natural
numbers. -/
def dataLocation (building meter : Int) : Str :=
  "/building".toList ++ formatNat building.toNat ++ "/elec/meter".toList ++ formatNat meter.toNat

/-- `CSVDataStore.load_metadata(key)` below the root, csvdatastore.py:147-162: `data_location` of every meter is set. -/
def csvLoadBuilding {V α : Type} (d : CsvDisk V α) (key : Str) : Except Err (DiskBuilding V) :=
  match Key.parse key with
  | .error e => .error e
  | .ok k =>
    match k.meter with
    | some _ => .error .notImplemented
    | none =>
      match d.buildingYaml.lookup k.building with
      | none => .error .typeError
      | some m =>
        match m.meters with
        | none => .error .keyError
        | some ms => .ok { m with
            meters := some (ms.map (fun e => (e.1, dictSet e.2 "data_location" (.text (dataLocation k.building e.1))))) }

/-- A call that writes. -/
inductive CsvCall (V α : Type) where
  | put (key : Str) (df : DiskFrame α)
  | append (key : Str) (df : DiskFrame α)
  | remove (key : Str)
  | saveRoot (m : List (String × MetaVal V))
  | saveBuilding (key : Str) (m : DiskBuilding V)

/-- One call. -/
def csvCall {V α : Type} (d : CsvDisk V α) : CsvCall V α → Except Err (CsvDisk V α)
  | .put key df => csvPut d key df
  | .append key df => csvAppend d key df
  | .remove key => csvRemove d key
  | .saveRoot m => csvSaveRoot d m
  | .saveBuilding key m => csvSaveBuilding d key m

/-- A history of calls; a call that raises leaves the directory as it is and the caller goes on. -/
def csvRun {V α : Type} : List (CsvCall V α) → CsvDisk V α → CsvDisk V α
  | [], d => d
  | c :: cs, d =>
    match csvCall d c with
    | .error _ => csvRun cs d
    | .ok d' => csvRun cs d'

end Nilmtk
