import Verif.Model.Eco
/-!
Model of the converter of the IDEAL dataset, nilmtk/dataset_converters/ideal/convert_ideal.py: two folders of files that are named
`home<h>_<room>_sensor<s>_<category>_<subtype>.csv.gz`.

The files of a folder come in the order of `Path.glob`. The reading of a time is an input (nanoseconds, `none` if it cannot be read). Rows have a
time and one value of an arbitrary type `α`. The time zone (`tz_convert` changes how times are shown only), the metadata and printing are not
modelled; nor are digits outside ASCII in names. `DataFrame.sort_index` is an input, because pandas leaves the order of equal times open.
-/
namespace Nilmtk

/-- The files `home*.csv.gz` of a folder with their rows. -/
abbrev IdealFiles (α : Type) := List (Str × List (Option Int × α))

/-- The path that is converted: the names of all folders below it in the order of `os.walk`, and the folders directly in it. -/
structure IdealTree (α : Type) where
  walk : List Str
  dir : Str → Option (IdealFiles α)

/-- `s.split(sep)` for a separator of one character. -/
def splitChar (sep : Char) : Str → List Str
  | [] => [[]]
  | c :: cs =>
    if c = sep then [] :: splitChar sep cs
    else
      match splitChar sep cs with
      | [] => [[c]]
      | p :: ps => (c :: p) :: ps

/-- The parts `home_, room_, sensor_, category_, subtype_` of the name of a file. -/
structure IdealName where
  home : Str
  room : Str
  sensor : Str
  category : Str
  subtype : Str

/-- `home_, room_, sensor_, category_, subtype_ = file.name.split('_')`, convert_ideal.py:149, 158, 180. -/
def idealParts (name : Str) : Except Err IdealName :=
  match splitChar '_' name with
  | [h, r, s, c, t] => .ok ⟨h, r, s, c, t⟩
  | _ => .error .valueError

/-- `str(category_)=="electric-mains" or str(category_)=='electric-appliance'`, convert_ideal.py:150, 159, 181. -/
def idealElectric (category : Str) : Bool := category == "electric-mains".toList || category == "electric-appliance".toList

/-- `int(re.sub('\D', '', s))`, convert_ideal.py:151, 160, 182-185. -/
def idealInt (s : Str) : Except Err Int :=
  match pyInt (s.filter (fun c => (digitVal c).isSome)) with
  | none => .error .valueError
  | some n => .ok n

/-- The loops of `mains_plus_appliance_home_id`, convert_ideal.py:147-151, 156-160. -/
def idealHomes : List Str → Except Err (List Int)
  | [] => .ok []
  | name :: names =>
    match idealParts name with
    | .error e => .error e
    | .ok p =>
      if idealElectric p.category then
        match idealInt p.home with
        | .error e => .error e
        | .ok h =>
          match idealHomes names with
          | .error e => .error e
          | .ok hs => .ok (h :: hs)
      else idealHomes names

/-- The names of the files of a folder; `glob` finds nothing in a folder that does not exist. -/
def idealNames {α : Type} (tree : IdealTree α) (folder : Str) : List Str := ((tree.dir folder).getD []).map Prod.fst

/-- `mains_plus_appliance_home_id`, convert_ideal.py:141-162. -/
def idealValid {α : Type} (tree : IdealTree α) (folders : List Str) : Except Err (List Int) :=
  match folders with
  | folder2 :: folder1 :: _ =>
    match idealHomes (idealNames tree folder1) with
    | .error e => .error e
    | .ok appliance =>
      match idealHomes (idealNames tree folder2) with
      | .error e => .error e
      | .ok mains => .ok (mains.filter (fun h => decide (h ∈ appliance)))
  | _ => .error .indexError

/-- A file to convert: home, sensor, category and rows. -/
structure IdealItem (α : Type) where
  home : Int
  sensor : Str
  category : Str
  rows : List (Option Int × α)

/-- One round of `_find_all_houses_sensor`, convert_ideal.py:179-191; `none` if the file is left out. -/
def idealItem {α : Type} (valid : List Int) (f : Str × List (Option Int × α)) : Except Err (Option (IdealItem α)) :=
  match idealParts f.1 with
  | .error e => .error e
  | .ok p =>
    if idealElectric p.category then
      match idealInt p.home with
      | .error e => .error e
      | .ok h =>
        if h ∈ valid then
          match idealInt p.room with
          | .error e => .error e
          | .ok _ =>
            if p.sensor.take 6 = "sensor".toList then .ok (some ⟨h, p.sensor.drop 6, p.category, f.2⟩)
            else .error .assertionError
        else .ok none
    else .ok none

/-- `_find_all_houses_sensor`, convert_ideal.py:164-193. -/
def idealFind {α : Type} (valid : List Int) : IdealFiles α → Except Err (List (IdealItem α))
  | [] => .ok []
  | f :: fs =>
    match idealItem valid f with
    | .error e => .error e
    | .ok o =>
      match idealFind valid fs with
      | .error e => .error e
      | .ok is => .ok (o.toList ++ is)

/-- The times of a file, convert_ideal.py:220-222: rounded down to seconds, `ValueError` if one cannot be read. -/
def idealTimes {α : Type} : List (Option Int × α) → Except Err (List (Int × α))
  | [] => .ok []
  | (none, _) :: _ => .error .valueError
  | (some t, v) :: rs =>
    match idealTimes rs with
    | .error e => .error e
    | .ok rs' => .ok ((t / 1000000000 * 1000000000, v) :: rs')

/-- `_load_csv`, convert_ideal.py:198-234, with `sort_index=True` and `drop_duplicates=False`. An empty file is a `ValueError`. -/
def idealLoad {α : Type} (sort : List (Int × α) → List (Int × α)) (rows : List (Option Int × α)) (columns : List (String × String)) :
    Except Err (RawTable α) :=
  if rows.isEmpty then .error .valueError
  else
    match idealTimes rows with
    | .error e => .error e
    | .ok rs => .ok ⟨columns, sort rs⟩

/-- `_ideal_measurement_mapping_func`, convert_ideal.py:51-57. -/
def idealColumns (category : Str) : List (String × String) :=
  if category = "electric-appliance".toList then [("power", "active")] else [("power", "apparent")]

/-- The number of the meter, convert_ideal.py:117, 127-129: `int(sensor)`, and for the mains `int(sensor.split('c')[0])`. -/
def idealMeter (category sensor : Str) : Option Int :=
  if category = "electric-appliance".toList then pyInt sensor else pyInt ((splitChar 'c' sensor).headD [])

/-- One round of the loop of `_convert`, convert_ideal.py:114-138. The categories are those of `_find_all_houses_sensor`. -/
def idealStore {α : Type} (sort : List (Int × α) → List (Int × α)) (i : IdealItem α) (st : RawStore α) : RawStore α × Option Err :=
  match idealMeter i.category i.sensor with
  | none => (st, some .valueError)
  | some m =>
    match ecoKey i.home m with
    | .error e => (st, some e)
    | .ok key =>
      match idealLoad sort i.rows (idealColumns i.category) with
      | .error e => (st, some e)
      | .ok t => (st.put key t, none)

/-- `_convert`, convert_ideal.py:88-138, for one folder. A folder that is not directly in the path is an `IOError`. -/
def idealFolder {α : Type} (sort : List (Int × α) → List (Int × α)) (tree : IdealTree α) (valid : List Int) (folder : Str)
    (st : RawStore α) : RawStore α × Option Err :=
  match tree.dir folder with
  | none => (st, some .fileNotFound)
  | some files =>
    match idealFind valid files with
    | .error e => (st, some e)
    | .ok items => ecoLoop (idealStore sort) items st

/-- The folders that are converted, convert_ideal.py:64-68. -/
def idealFolders {α : Type} (tree : IdealTree α) : List Str :=
  tree.walk.filter (fun f => f == "household_sensordata".toList || f == "rooms_appliance_sensordata".toList)

/-- `convert_ideal`, convert_ideal.py:25-86: the store and the error that ended the conversion. -/
def convertIdeal {α : Type} (sort : List (Int × α) → List (Int × α)) (tree : IdealTree α) : RawStore α × Option Err :=
  match idealValid tree (idealFolders tree) with
  | .error e => (fun _ => none, some e)
  | .ok valid => ecoLoop (idealFolder sort tree valid) (idealFolders tree) (fun _ => none)

end Nilmtk
