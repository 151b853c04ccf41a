import Verif.Model.Key
import Mathlib.Data.List.Sort
/-!
Model of the conversion of directories of channel files: nilmtk/dataset_converters/redd/convert_redd.py (`_convert`, which
the converter of UK-DALE uses too) and nilmtk/dataset_converters/ukdale/convert_ukdale.py.

A directory is the list of its names. The values in a row of a file have an arbitrary type `α`: their conversion to 32-bit
floats is not modelled, nor are rows with a wrong number of fields, times that are no whole numbers, the time zone
(`tz_convert` changes how times are shown only) and printing. Names contain no line breaks and no digits outside ASCII.
`DataFrame.sort_index` is an input, because pandas leaves the order of equal times open.
-/
namespace Nilmtk

/-- The rows of a file: time in seconds and values. -/
abbrev RawRows (α : Type) := List (Int × α)

/-- `listdir(input_path)`: every directory with its content (`none` for what is no directory), in which every file comes
with its rows (`none` for what is no file). -/
abbrev RawTree (α : Type) := List (Str × Option (List (Str × Option (RawRows α))))

/-- A table in the store: its columns, and its rows with times in nanoseconds. -/
structure RawTable (α : Type) where
  columns : List (String × String)
  rows : List (Int × α)
  deriving DecidableEq, Repr

/-- The tables of a store by key. -/
abbrev RawStore (α : Type) := Str → Option (RawTable α)

/-- `store.put(key, df)`. -/
def RawStore.put {α : Type} (st : RawStore α) (k : Str) (t : RawTable α) : RawStore α :=
  fun k' => if k' = k then some t else st k'

/-- What follows a prefix. -/
def afterPrefix : Str → Str → Option Str
  | [], s => some s
  | _ :: _, [] => none
  | p :: ps, c :: cs => if p = c then afterPrefix ps cs else none

/-- `int(m.group(1))` of a match of `^house_(\d)$`, convert_redd.py:113. -/
def matchHouse (s : Str) : Option Nat :=
  match afterPrefix "house_".toList s with
  | some [d] => digitVal d
  | _ => none

/-- `int(m.group(1))` of a match of `^channel_(\d\d?).dat$`, convert_redd.py:124. The dot matches any character. -/
def matchChannel (s : Str) : Option Nat :=
  match afterPrefix "channel_".toList s with
  | some [d, _, 'd', 'a', 't'] => digitVal d
  | some [d, e, _, 'd', 'a', 't'] =>
    match digitVal d, digitVal e with
    | some m, some n => some (m * 10 + n)
    | _, _ => none
  | _ => none

/-- `_matching_ints`, convert_redd.py:127-149. -/
def matchingInts (rx : Str → Option Nat) (names : List Str) : List Nat :=
  (names.filterMap rx).insertionSort (· ≤ ·)

/-- The content of a directory below the input path; `none` if there is no such directory. -/
def houseDir {α : Type} (tree : RawTree α) (name : Str) : Option (List (Str × Option (RawRows α))) :=
  (tree.lookup name).join

/-- `_find_all_houses`, convert_redd.py:106-113. -/
def findAllHouses {α : Type} (tree : RawTree α) : List Nat :=
  matchingInts matchHouse ((tree.filter (fun e => e.2.isSome)).map Prod.fst)

/-- `'house_{:d}'.format(house_id)`, convert_redd.py:122, 166. -/
def houseName (house : Nat) : Str := "house_".toList ++ formatNat house

/-- `'channel_{:d}.dat'.format(meter)`, convert_redd.py:171. -/
def channelName (chan : Nat) : Str := "channel_".toList ++ formatNat chan ++ ".dat".toList

/-- `_find_all_chans`, convert_redd.py:116-124; `listdir` of a missing directory raises. -/
def findAllChans {α : Type} (tree : RawTree α) (house : Nat) : Except Err (List Nat) :=
  match houseDir tree (houseName house) with
  | none => .error .fileNotFound
  | some files => .ok (matchingInts matchChannel ((files.filter (fun e => e.2.isSome)).map Prod.fst))

/-- `_get_csv_filename`, convert_redd.py:152-175, together with the content of the file it names. -/
def csvFile {α : Type} (tree : RawTree α) (house chan : Nat) : Except Err (RawRows α) :=
  match houseDir tree (houseName house) with
  | none => .error .assertionError
  | some files =>
    match (files.lookup (channelName chan)).join with
    | none => .error .assertionError
    | some rows => .ok rows

/-- `df[~df.index.duplicated(keep='first')]`, convert_redd.py:213-216; `seen` are the times so far. -/
def dropDups {α : Type} (seen : List Int) : List (Int × α) → List (Int × α)
  | [] => []
  | r :: rs => if r.1 ∈ seen then dropDups seen rs else r :: dropDups (r.1 :: seen) rs

/-- `_load_csv`, convert_redd.py:178-218. An empty file is an `EmptyDataError`, which is a `ValueError`. -/
def loadCsv {α : Type} (sort : List (Int × α) → List (Int × α)) (file : RawRows α) (columns : List (String × String))
    (dropDuplicates sortIndex : Bool) : Except Err (RawTable α) :=
  if file.isEmpty then .error .valueError
  else
    let rows := file.map (fun r => (r.1 * 1000000000, r.2))
    let rows := if sortIndex then sort rows else rows
    let rows := if dropDuplicates then dropDups [] rows else rows
    .ok ⟨columns, rows⟩

/-- The parameters of `_convert` besides the path and the store. -/
structure RawConfig (α : Type) where
  sort : List (Int × α) → List (Int × α)
  mapping : Nat → Nat → Except Err (List (String × String))
  sortIndex : Bool
  dropDuplicates : Bool

/-- One round of the inner loop of `_convert`, convert_redd.py:93-103: the key and the table to put. -/
def convertChan {α : Type} (cfg : RawConfig α) (tree : RawTree α) (house chan : Nat) : Except Err (Str × RawTable α) :=
  match Key.ofNumbers house (some (chan : Int)) with
  | .error e => .error e
  | .ok key =>
    match cfg.mapping house chan with
    | .error e => .error e
    | .ok columns =>
      match csvFile tree house chan with
      | .error e => .error e
      | .ok file =>
        match loadCsv cfg.sort file columns cfg.dropDuplicates cfg.sortIndex with
        | .error e => .error e
        | .ok table =>
          match key.repr with
          | .error e => .error e
          | .ok text => .ok (text, table)

/-- The inner loop of `_convert`, convert_redd.py:90-103: the store and the error that ended the loop. -/
def convertChans {α : Type} (cfg : RawConfig α) (tree : RawTree α) (house : Nat) :
    List Nat → RawStore α → RawStore α × Option Err
  | [], st => (st, none)
  | c :: cs, st =>
    match convertChan cfg tree house c with
    | .error e => (st, some e)
    | .ok (k, t) => convertChans cfg tree house cs (st.put k t)

/-- The outer loop of `_convert`, convert_redd.py:86-104. -/
def convertHouses {α : Type} (cfg : RawConfig α) (tree : RawTree α) :
    List Nat → RawStore α → RawStore α × Option Err
  | [], st => (st, none)
  | h :: hs, st =>
    match findAllChans tree h with
    | .error e => (st, some e)
    | .ok chans =>
      match convertChans cfg tree h chans st with
      | (st', some e) => (st', some e)
      | (st', none) => convertHouses cfg tree hs st'

/-- `_convert`, convert_redd.py:60-104; `none` is a path that is no directory. -/
def convertRaw {α : Type} (cfg : RawConfig α) (path : Option (RawTree α)) (st : RawStore α) : RawStore α × Option Err :=
  match path with
  | none => (st, some .fileNotFound)
  | some tree => convertHouses cfg tree (findAllHouses tree) st

/-- `_redd_measurement_mapping_func`, convert_redd.py:34-36. -/
def reddMapping (_house chan : Nat) : Except Err (List (String × String)) :=
  .ok [("power", if chan ≤ 2 then "apparent" else "active")]

/-- The readings that `convert_redd` stores, convert_redd.py:22-43, into an empty store. The metadata is not modelled. -/
def convertRedd {α : Type} (sort : List (Int × α) → List (Int × α)) (path : Option (RawTree α)) :
    RawStore α × Option Err :=
  convertRaw ⟨sort, reddMapping, true, false⟩ path (fun _ => none)

/-- `ac_type_map`, convert_ukdale.py:60-87: a dictionary from house and meter to kinds of power. -/
abbrev AcTypeMap := List ((Nat × Nat) × List String)

/-- `_ukdale_measurement_mapping_func`, convert_ukdale.py:35-37. -/
def ukdaleMapping (m : AcTypeMap) (house chan : Nat) : Except Err (List (String × String)) :=
  match m.lookup (house, chan) with
  | none => .error .keyError
  | some [] => .error .indexError
  | some (t :: _) => .ok [("power", t)]

/-- `ONE_SEC_COLUMNS`, convert_ukdale.py:10. -/
def oneSecColumns : List (String × String) := [("power", "active"), ("power", "apparent"), ("voltage", "")]

/-- The loop of `_convert_one_sec_data`, convert_ukdale.py:99-105. -/
def oneSecLoop {α : Type} (sort : List (Int × α) → List (Int × α)) (tree : RawTree α) (drop : Bool) :
    List (Nat × Nat) → RawStore α → RawStore α × Option Err
  | [], st => (st, none)
  | (h, c) :: ids, st =>
    match Key.ofNumbers h (some (c : Int)) with
    | .error e => (st, some e)
    | .ok key =>
      match (houseDir tree (houseName h)).bind (fun files => (files.lookup "mains.dat".toList).join) with
      | none => (st, some .fileNotFound)
      | some file =>
        match loadCsv sort file oneSecColumns drop false with
        | .error e => (st, some e)
        | .ok table =>
          match key.repr with
          | .error e => (st, some e)
          | .ok text => oneSecLoop sort tree drop ids (st.put text table)

/-- `_convert_one_sec_data`, convert_ukdale.py:90-107. -/
def convertOneSec {α : Type} (sort : List (Int × α) → List (Int × α)) (tree : RawTree α) (m : AcTypeMap) (drop : Bool)
    (st : RawStore α) : RawStore α × Option Err :=
  oneSecLoop sort tree drop ((m.filter (fun e => e.2 = ["active", "apparent"])).map Prod.fst) st

/-- The readings that `convert_ukdale` stores, convert_ukdale.py:14-57, into an empty store. -/
def convertUkdale {α : Type} (sort : List (Int × α) → List (Int × α)) (path : Option (RawTree α)) (m : AcTypeMap)
    (drop : Bool) : RawStore α × Option Err :=
  match convertRaw ⟨sort, ukdaleMapping m, false, drop⟩ path (fun _ => none), path with
  | (st, some e), _ => (st, some e)
  | (st, none), none => (st, none)
  | (st, none), some tree => convertOneSec sort tree m drop st

end Nilmtk
