import Verif.Model.Key
import Verif.Model.HDF
/-!
Model of `convert_datastore` in `nilmtk/datastore/datastore.py`, with the two kinds of store on both sides.

Metadata are opaque values of a type `M`. A store is seen through the methods `convert_datastore` calls.
-/
namespace Nilmtk

/-- The methods of the input store used by `convert_datastore`. -/
structure InStore (M α : Type) where
  loadMetadata : Str → Except Err M
  elementsBelowKey : Str → Except Err (List Str)
  load : Str → Gen (List (Row α))

/-- The methods of the output store used by `convert_datastore`; `σ` is the state of the store. -/
structure OutStore (σ M α : Type) where
  saveMetadata : σ → Str → M → Except Err σ
  append : σ → Str → List (Row α) → Except Err σ

/-- `for df in input_store.load(meter_key): output_store.append(meter_key, df)`, datastore.py:235-236, for the chunks
already produced. -/
def appendAll {σ M α : Type} (o : OutStore σ M α) (key : Str) : List (List (Row α)) → σ → σ × Option Err
  | [], s => (s, none)
  | df :: dfs, s =>
    match o.append s key df with
    | .error e => (s, some e)
    | .ok s' => appendAll o key dfs s'

/-- The loop over the meters, datastore.py:228-236. -/
def convertMeters {σ M α : Type} (i : InStore M α) (o : OutStore σ M α) (utilityKey : Str) :
    List Str → σ → σ × Option Err
  | [], s => (s, none)
  | meter :: meters, s =>
    if meter = "cache".toList then convertMeters i o utilityKey meters s
    else
      let key := utilityKey ++ '/' :: meter
      match appendAll o key (i.load key).out s with
      | (s', some e) => (s', some e)
      | (s', none) =>
        match (i.load key).err with
        | some e => (s', some e)
        | none => convertMeters i o utilityKey meters s'

/-- The loop over the utilities, datastore.py:226-236. -/
def convertUtilities {σ M α : Type} (i : InStore M α) (o : OutStore σ M α) (buildingKey : Str) :
    List Str → σ → σ × Option Err
  | [], s => (s, none)
  | utility :: utilities, s =>
    let key := buildingKey ++ '/' :: utility
    match i.elementsBelowKey key with
    | .error e => (s, some e)
    | .ok meters =>
      match convertMeters i o key meters s with
      | (s', some e) => (s', some e)
      | (s', none) => convertUtilities i o buildingKey utilities s'

/-- The loop over the buildings, datastore.py:221-236. -/
def convertBuildings {σ M α : Type} (i : InStore M α) (o : OutStore σ M α) : List Str → σ → σ × Option Err
  | [], s => (s, none)
  | building :: buildings, s =>
    let key := '/' :: building
    match i.loadMetadata key with
    | .error e => (s, some e)
    | .ok m =>
      match o.saveMetadata s key m with
      | .error e => (s, some e)
      | .ok s₁ =>
        match i.elementsBelowKey building with
        | .error e => (s₁, some e)
        | .ok utilities =>
          match convertUtilities i o key utilities s₁ with
          | (s₂, some e) => (s₂, some e)
          | (s₂, none) => convertBuildings i o buildings s₂

/-- `convert_datastore`, datastore.py:212-236: the final state of the output store and the exception
raised, if any. -/
def convertDatastore {σ M α : Type} (i : InStore M α) (o : OutStore σ M α) (s : σ) : σ × Option Err :=
  match i.loadMetadata ['/'] with
  | .error e => (s, some e)
  | .ok m =>
    match o.saveMetadata s ['/'] m with
    | .error e => (s, some e)
    | .ok s₁ =>
      match i.elementsBelowKey ['/'] with
      | .error e => (s₁, some e)
      | .ok buildings => convertBuildings i o buildings s₁

/-! ### HDF as input -/

/-- The content of an HDF file: metadata of the root and of the buildings, and the tables. A child of a utility which is
not a table (the cache) is `none`. -/
structure HdfTree (M α : Type) where
  rootMeta : Option M
  buildings : List (Str × Option M × List (Str × List (Str × Option (List (Row α)))))

/-- The building called `b`. -/
def HdfTree.building? {M α : Type} (t : HdfTree M α) (b : Str) := t.buildings.lookup b

/-- `HDFDataStore.load_metadata`, hdfdatastore.py:180-187: a missing node or a node without the attribute raises
`AttributeError`. Only the root and buildings are asked for here. -/
def hdfLoadMetadata {M α : Type} (t : HdfTree M α) (key : Str) : Except Err M :=
  if key = ['/'] then
    match t.rootMeta with
    | none => .error .attributeError
    | some m => .ok m
  else
    match splitSlash (stripSlash key) with
    | [b] =>
      match t.building? b with
      | some (some m, _) => .ok m
      | _ => .error .attributeError
    | _ => .error .attributeError

/-- `HDFDataStore.elements_below_key`, hdfdatastore.py:200-205, for the root, buildings and utilities; `get_node`
ignores a missing leading slash. -/
def hdfElementsBelowKey {M α : Type} (t : HdfTree M α) (key : Str) : Except Err (List Str) :=
  if key = ['/'] ∨ key = [] then .ok (t.buildings.map Prod.fst)
  else
    match splitSlash (stripSlash key) with
    | [b] =>
      match t.building? b with
      | some (_, us) => .ok (us.map Prod.fst)
      | none => .error .attributeError
    | [b, u] =>
      match t.building? b with
      | none => .error .attributeError
      | some (_, us) =>
        match us.lookup u with
        | none => .error .attributeError
        | some ms => .ok (ms.map Prod.fst)
    | _ => .error .attributeError

/-- The table at a key of three parts. -/
def hdfTable {M α : Type} (t : HdfTree M α) (key : Str) : Option (List (Row α)) :=
  match splitSlash (stripSlash key) with
  | [b, u, m] =>
    match t.building? b with
    | none => none
    | some (_, us) =>
      match us.lookup u with
      | none => none
      | some ms => (ms.lookup m).join
  | _ => none

/-- An HDF store as the input, with its window and the default chunk size `cs`
(`MAX_MEM_ALLOWANCE_IN_BYTES`, datastore.py:5). -/
def hdfIn {M α : Type} (t : HdfTree M α) (window : TF) (cs : Int) : InStore M α where
  loadMetadata := hdfLoadMetadata t
  elementsBelowKey := hdfElementsBelowKey t
  load := fun key =>
    let g := (hdfLoad (hdfTable t key) window none 0 cs).1
    ⟨g.out.map Chunk.rows, g.err⟩

/-! ### CSV as input -/

/-- A CSV store as the input: the metadata it loads, the entries of each directory (by relative path; `none` if
it is not a directory), and its tables. -/
structure CsvTree (M α : Type) where
  metadata : Str → Except Err M
  listing : Str → Option (List Str)
  load : Str → Gen (List (Row α))

/-- `re.match('building[0-9]*', directory)`, csvdatastore.py:194. -/
def looksLikeBuilding (d : Str) : Bool := "building".toList.isPrefixOf d

/-- `CSVDataStore.elements_below_key`, csvdatastore.py:188-203. Below the root, line 201 uses the name `directory`, which
is not defined there. -/
def csvElementsBelowKey {M α : Type} (t : CsvTree M α) (key : Str) : Except Err (List Str) :=
  if key = ['/'] then
    .ok (((t.listing []).getD []).filter (fun d => (t.listing d).isSome && looksLikeBuilding d))
  else
    match t.listing (key.drop 1) with
    | none => .ok []
    | some [] => .ok []
    | some (_ :: _) => .error .unboundLocal

/-- A CSV store as the input. -/
def csvIn {M α : Type} (t : CsvTree M α) : InStore M α where
  loadMetadata := t.metadata
  elementsBelowKey := csvElementsBelowKey t
  load := t.load

/-! ### CSV as output -/

/-- A line of a CSV file: the header of a table, the header of an empty frame, or a row. -/
inductive CsvLine (α : Type) where
  | header
  | emptyHeader
  | row (r : Row α)
  deriving DecidableEq, Repr

/-- A CSV store as output: dataset metadata, building metadata by number, files by relative path. -/
structure CsvOut (M α : Type) where
  root : Option M
  buildings : List (Int × M)
  files : List (Str × List (CsvLine α))

/-- Overwrite or add an entry. -/
def setEntry {κ ν : Type} [DecidableEq κ] (k : κ) (v : ν) : List (κ × ν) → List (κ × ν)
  | [] => [(k, v)]
  | e :: es => if e.1 = k then (k, v) :: es else e :: setEntry k v es

/-- Append lines to a file, creating it if necessary. -/
def appendFile {α : Type} (path : Str) (lines : List (CsvLine α)) :
    List (Str × List (CsvLine α)) → List (Str × List (CsvLine α))
  | [] => [(path, lines)]
  | e :: es => if e.1 = path then (path, e.2 ++ lines) :: es else e :: appendFile path lines es

/-- `CSVDataStore.save_metadata`, csvdatastore.py:164-185. `hasDevices m` tells whether `m` has the key
`'meter_devices'`. -/
def csvSaveMetadata {M α : Type} (hasDevices : M → Bool) (s : CsvOut M α) (key : Str) (m : M) : Except Err (CsvOut M α) :=
  if key = ['/'] then
    if hasDevices m then .ok { s with root := some m } else .error .keyError
  else
    match Key.parse key with
    | .error e => .error e
    | .ok k =>
      match k.meter with
      | some _ => .error .assertionError
      | none => .ok { s with buildings := setEntry k.building m s.buildings }

/-- `CSVDataStore._key_to_abs_path`, csvdatastore.py:236-246, relative to the directory of the store. -/
def csvPath (key : Str) : Except Err Str :=
  if key.length > 1 then
    match Key.parse key with
    | .error e => .error e
    | .ok k =>
      let rel := if key.head? = some '/' then key.drop 1 else key
      .ok (match k.meter with
        | some _ => rel ++ ".csv".toList
        | none => rel)
  else .ok []

/-- What `to_csv(header=True)` writes for a frame; a frame without columns has a header of its own. -/
def csvLines {α : Type} (df : List (Row α)) : List (CsvLine α) :=
  match df with
  | [] => [.emptyHeader]
  | r :: rs => .header :: (r :: rs).map .row

/-- A CSV store as the output; `append` is csvdatastore.py:108-117. -/
def csvOut {M α : Type} (hasDevices : M → Bool) : OutStore (CsvOut M α) M α where
  saveMetadata := csvSaveMetadata hasDevices
  append := fun s key df =>
    match csvPath key with
    | .error e => .error e
    | .ok path => .ok { s with files := appendFile path (csvLines df) s.files }

/-! ### HDF as output -/

/-- An HDF store as output: metadata by key, tables by key. -/
structure HdfOut (M α : Type) where
  metadata : List (Str × M)
  tables : List (Str × List (Row α))

/-- `get_node(key)` finds something: some table lies at or below the key. -/
def HdfOut.hasNode {M α : Type} (s : HdfOut M α) (key : Str) : Bool :=
  s.tables.any (fun e => e.1 = key || (key ++ ['/']).isPrefixOf e.1)

/-- An HDF store as the output: hdfdatastore.py:151-165 (an empty frame is not written by pandas), 190-197. -/
def hdfOut {M α : Type} : OutStore (HdfOut M α) M α where
  saveMetadata := fun s key m =>
    if key = ['/'] ∨ s.hasNode key = true then .ok { s with metadata := setEntry key m s.metadata }
    else .error .attributeError
  append := fun s key df =>
    if df = [] then .ok s
    else .ok { s with tables :=
      match s.tables.lookup key with
      | none => s.tables ++ [(key, df)]
      | some rows => setEntry key (rows ++ df) s.tables }

end Nilmtk
