import Verif.Model.Iawe
/-!
Model of the conversion of CAxE: nilmtk/dataset_converters/caxe/convert_caxe.py, for pandas before 2.0 (later `df.drop("timestamp", 1)` is a
`TypeError`).

The file is given as `pd.read_csv` reads it, with a time in every row (nanoseconds, UTC) and numbers or NaN in the other columns; values that a row
lacks are NaN. Whether the times have a time zone is an input. The order that `DataFrame.sort_index` gives to rows with equal times is an input.
Time zones, 32 bit rounding, metadata and printing are not modelled.
-/
namespace Nilmtk

/-- `column_mapping`, convert_caxe.py:22-29. -/
def caxeMapping : List (Char × (String × String)) :=
  [('F', ("frequency", "")), ('V', ("voltage", "")), ('T', ("power", "active")), ('C', ("current", "")), ('R', ("power", "reactive")),
   ('A', ("power", "apparent"))]

/-- The columns of the table, convert_caxe.py:21, 42-45: `names` without `timestamp`, mapped. -/
def caxeColumns : List (String × String) := ['R', 'A', 'C', 'F', 'V', 'T'].filterMap (fun c => caxeMapping.lookup c)

/-- A row that `df.dropna()` keeps, convert_caxe.py:47. -/
def caxeComplete (r : Int × List (Option Rat)) : Bool := (List.range 6).all (fun j => ((r.2[j]?).join).isSome)

/-- The table that is to be stored, convert_caxe.py:47-52. HDF5 stores no empty tables, so that the index of such a table cannot be created. -/
def caxeTable (sort : List (Int × List (Option Rat)) → List (Int × List (Option Rat))) (rows : List (Int × List (Option Rat))) :
    Except Err (RawTable (List Rat)) :=
  let kept := sort (rows.filter caxeComplete)
  let col := fun j : Nat => resampleMean iaweMinute (kept.map (fun r => (r.1, (r.2[j]?).join)))
  let table := (col 0).map (fun r => (r.1, (List.range 6).map (fun j => (col j).at r.1)))
  if table.any (fun r => r.2.any Option.isNone) then .error .assertionError
  else if table.isEmpty then .error .keyError
  else .ok ⟨caxeColumns, table.map (fun r => (r.1, r.2.filterMap id))⟩

/-- The data part of `convert_caxe`, convert_caxe.py:12-53: `pd.read_csv` refuses an empty file before the store is opened, `tz_convert` refuses times
without a time zone. -/
def convertCaxe (sort : List (Int × List (Option Rat)) → List (Int × List (Option Rat))) (aware : Bool) (rows : List (Int × List (Option Rat))) :
    RawStore (List Rat) × Option Err :=
  if rows.isEmpty then (fun _ => none, some .valueError)
  else
    match Key.ofNumbers 1 (some (1 : Int)) with
    | .error e => (fun _ => none, some e)
    | .ok key =>
      if !aware then (fun _ => none, some .typeError)
      else
        match key.repr with
        | .error e => (fun _ => none, some e)
        | .ok text =>
          match caxeTable sort rows with
          | .error e => (fun _ => none, some e)
          | .ok t => (RawStore.put (fun _ => none) text t, none)

end Nilmtk
