import Verif.Model.Redd
import Mathlib.Algebra.Order.Ring.Rat
/-!
Model of three converters of files with one column per meter:
nilmtk/dataset_converters/refit/convert_refit.py, nilmtk/dataset_converters/dred/convert_dred.py and
nilmtk/dataset_converters/hipe/convert_hipe.py.

The parsing of numbers and times, the time zone (`tz_convert` changes how times are shown only), the metadata and printing are not
modelled. Column names in a header are distinct. `DataFrame.sort_index` is an input, because pandas leaves the order of equal times
open.
-/
namespace Nilmtk

/-! ### REFIT -/

/-- A CSV file with a header: the names of its columns, and for every row the value of the column `Unix`, in seconds, and the cells by
column. -/
structure WideFile (α : Type) where
  header : List String
  rows : List (Int × (String → α))

/-- `usecols`, convert_refit.py:111. -/
def refitUsecols : List String :=
  ["Unix", "Aggregate", "Appliance1", "Appliance2", "Appliance3", "Appliance4", "Appliance5", "Appliance6", "Appliance7", "Appliance8",
    "Appliance9"]

/-- `_load_csv`, convert_refit.py:133-151: `pd.read_csv` raises `ValueError` if a wanted column is missing, and keeps the wanted
columns in the order of the file; `Unix` becomes the index. -/
def refitLoad {α : Type} (f : WideFile α) : Except Err (List String × List (Int × (String → α))) :=
  if refitUsecols.all (fun c => f.header.contains c) then
    .ok ((f.header.filter (fun c => refitUsecols.contains c)).filter (fun c => c != "Unix"),
      f.rows.map (fun r => (r.1 * 1000000000, r.2)))
  else .error .valueError

/-- The loop over the columns, convert_refit.py:116-130 and convert_dred.py:97-109: `chan` is the next `chan_id`. -/
def putColumns {α : Type} (acType : String) (building : Nat) (rows : List (Int × (String → α))) :
    List String → Nat → RawStore α → RawStore α × Option Err
  | [], _, st => (st, none)
  | c :: cs, chan, st =>
    match Key.ofNumbers building (some (chan : Int)) with
    | .error e => (st, some e)
    | .ok key =>
      match key.repr with
      | .error e => (st, some e)
      | .ok text => putColumns acType building rows cs (chan + 1) (st.put text ⟨[("power", acType)], rows.map (fun r => (r.1, r.2 c))⟩)

/-- `houses`, convert_refit.py:83-84: house 14 is missing. -/
def refitHouses : List Nat := [1, 2, 3, 4, 5, 6, 7, 8, 9, 10, 11, 12, 13, 15, 16, 17, 18, 19, 20, 21]

/-- `prefix + 'House' + suffix + str(house_id) + '.csv'`, convert_refit.py:94, 103. -/
def refitName (clean : Bool) (house : Nat) : Str :=
  (if clean then "CLEAN_House".toList else "House_".toList) ++ formatNat house ++ ".csv".toList

/-- The loop over the houses, convert_refit.py:85-131: `n` is `nilmtk_house_id`, and `version` what is known about the names of the files
(`version_checked`, `prefix` and `suffix`). -/
def refitLoop {α : Type} (sort : List (Int × (String → α)) → List (Int × (String → α))) (sortIndex : Bool)
    (files : Str → Option (WideFile α)) : List Nat → Nat → Option Bool → RawStore α → RawStore α × Option Err
  | [], _, _, st => (st, none)
  | h :: hs, n, version, st =>
    let clean : Bool := version.getD ((files (refitName false h)).isNone)
    match files (refitName clean h) with
    | none => (st, some .runtimeError)
    | some f =>
      match refitLoad f with
      | .error e => (st, some e)
      | .ok (cols, rows) =>
        match putColumns "active" (n + 1) (if sortIndex then sort rows else rows) cols 1 st with
        | (st', some e) => (st', some e)
        | (st', none) => refitLoop sort sortIndex files hs (n + 1) (some clean) st'

/-- `_convert`, convert_refit.py:62-131; `none` is a path that is no directory. -/
def convertRefit {α : Type} (sort : List (Int × (String → α)) → List (Int × (String → α))) (sortIndex : Bool)
    (path : Option (Str → Option (WideFile α))) (st : RawStore α) : RawStore α × Option Err :=
  match path with
  | none => (st, some .fileNotFound)
  | some files => refitLoop sort sortIndex files refitHouses 0 none st

/-! ### DRED -/

/-- The names without `Timestamp`, convert_dred.py:86-92. -/
def dredNames : List String :=
  ["mains", "television", "fan", "fridge", "laptop computer", "electric heating element", "oven", "unknown", "washing machine", "microwave",
    "toaster", "sockets", "cooker"]

/-- A line of the file: the time in nanoseconds and the other fields; `none` for a line whose first field is no time. -/
abbrev DredLine := Option (Int × List (Option Rat))

/-- The lines as rows; a time that cannot be read raises `ValueError`. -/
def dredRows : List DredLine → Except Err (List (Int × List (Option Rat)))
  | [] => .ok []
  | none :: _ => .error .valueError
  | some r :: ls =>
    match dredRows ls with
    | .error e => .error e
    | .ok rs => .ok (r :: rs)

/-- The cell of a row under a name: fields missing at the end of a line are NaN. -/
def dredCell (cells : List (Option Rat)) (name : String) : Option Rat := cells.getD (dredNames.idxOf name) none

/-- `_load_csv`, convert_dred.py:113-133: the first three lines are skipped; the first line after them tells the number of columns; a
longer line, no line at all and a number of columns other than that of the names raise `ValueError`. -/
def dredLoad (file : List DredLine) : Except Err (List (Int × (String → Option Rat))) :=
  match dredRows (file.drop 3) with
  | .error e => .error e
  | .ok [] => .error .valueError
  | .ok (r :: rs) =>
    if (r :: rs).any (fun x => decide (r.2.length < x.2.length)) then .error .valueError
    else if r.2.length = dredNames.length then .ok ((r :: rs).map (fun x => (x.1, dredCell x.2)))
    else .error .valueError

/-- `_convert`, convert_dred.py:60-110; `none` is a missing file. -/
def convertDred (sort : List (Int × (String → Option Rat)) → List (Int × (String → Option Rat))) (sortIndex : Bool)
    (file : Option (List DredLine)) (st : RawStore (Option Rat)) : RawStore (Option Rat) × Option Err :=
  match file with
  | none => (st, some .fileNotFound)
  | some f =>
    match dredLoad f with
    | .error e => (st, some e)
    | .ok rows => putColumns "apparent" 1 (if sortIndex then sort rows else rows) dredNames 1 st

/-! ### HIPE -/

/-- `meter_to_machine`, convert_hipe.py:56-68. -/
def hipeMachines : List (Nat × String) :=
  [(1, "MainTerminal"), (2, "ChipPress"), (3, "ChipSaw"), (4, "HighTemperatureOven"), (5, "PickAndPlaceUnit"), (6, "ScreenPrinter"),
    (7, "SolderingOven"), (8, "VacuumOven"), (9, "VacuumPump1"), (10, "VacuumPump2"), (11, "WashingMachine")]

/-- A file: the readings in kW with times in nanoseconds; `none` for a file without the two columns. -/
abbrev HipeFile := Option (List (Int × Option Rat))

/-- `glob.glob(input_path + "/" + value + "*.csv")`, convert_hipe.py:90, in the order of the directory. -/
def hipeGlob (dir : List (Str × HipeFile)) (machine : String) : List (Str × HipeFile) :=
  dir.filter (fun e => machine.toList.isPrefixOf e.1 && ".csv".toList.isSuffixOf (e.1.drop machine.toList.length))

/-- `_find_all_channels`, convert_hipe.py:88-92. -/
def hipeChannels (dir : List (Str × HipeFile)) : List (Nat × String) → Except Err (List (Nat × HipeFile))
  | [] => .ok []
  | (k, m) :: ms =>
    match hipeGlob dir m with
    | [] => .error .indexError
    | f :: _ =>
      match hipeChannels dir ms with
      | .error e => .error e
      | .ok cs => .ok ((k, f.2) :: cs)

/-- `_hipe_measurement_mapping_func`, convert_hipe.py:47-48. -/
def hipeMapping (chan : Nat) : String := if chan < 2 then "apparent" else "active"

/-- `_load_csv`, convert_hipe.py:95-116. -/
def hipeLoad (sort : List (Int × Option Rat) → List (Int × Option Rat)) (file : HipeFile) (acType : String)
    (sortIndex dropDuplicates : Bool) : Except Err (RawTable (Option Rat)) :=
  match file with
  | none => .error .valueError
  | some rows =>
    let rows := rows.map (fun r => (r.1, r.2.map (fun x => x * 1000)))
    let rows := if sortIndex then sort rows else rows
    let rows := if dropDuplicates then dropDups [] rows else rows
    .ok ⟨[("power", acType)], rows.map (fun r => (r.1, r.2.map (fun x => |x|)))⟩

/-- The loop over the channels, convert_hipe.py:74-85. -/
def hipeLoop (sort : List (Int × Option Rat) → List (Int × Option Rat)) (sortIndex dropDuplicates : Bool) :
    List (Nat × HipeFile) → RawStore (Option Rat) → RawStore (Option Rat) × Option Err
  | [], st => (st, none)
  | (k, f) :: cs, st =>
    match Key.ofNumbers 1 (some (k : Int)) with
    | .error e => (st, some e)
    | .ok key =>
      match hipeLoad sort f (hipeMapping k) sortIndex dropDuplicates with
      | .error e => (st, some e)
      | .ok table =>
        match key.repr with
        | .error e => (st, some e)
        | .ok text => hipeLoop sort sortIndex dropDuplicates cs (st.put text table)

/-- `_convert`, convert_hipe.py:51-85; `none` is a path that is no directory. `convert_hipe` passes the name of the time zone as
`sort_index`, convert_hipe.py:35-36, which is true, and nothing as `drop_duplicates`. -/
def convertHipe (sort : List (Int × Option Rat) → List (Int × Option Rat)) (sortIndex dropDuplicates : Bool)
    (path : Option (List (Str × HipeFile))) (st : RawStore (Option Rat)) : RawStore (Option Rat) × Option Err :=
  match path with
  | none => (st, some .fileNotFound)
  | some dir =>
    match hipeChannels dir hipeMachines with
    | .error e => (st, some e)
    | .ok cs => hipeLoop sort sortIndex dropDuplicates cs st

end Nilmtk
