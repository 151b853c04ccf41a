import Mathlib.Data.List.Sort
import Verif.Model.Greend
/-!
Model of the conversions of AMPds (nilmtk/dataset_converters/ampds/convert_ampds.py) and COMBED
(nilmtk/dataset_converters/combed/convert_combed.py), both for pandas before 2.0 (later `df.drop("...", 1)` is a `TypeError`).

Files are given as `pd.read_csv` reads them, with numbers or missing values; text in a column, time zones (they change how times are shown only),
rounding to 32 bits, metadata and printing are not modelled.
-/
namespace Nilmtk

/-- `columnNameMapping`, convert_ampds.py:13-23. -/
def ampdsMapping : List (Str × (String × String)) :=
  [("V".toList, ("voltage", "")), ("I".toList, ("current", "")), ("f".toList, ("frequency", "")), ("DPF".toList, ("power factor", "real")),
   ("APF".toList, ("power factor", "apparent")), ("P".toList, ("power", "active")), ("Pt".toList, ("energy", "active")),
   ("Q".toList, ("power", "reactive")), ("Qt".toList, ("energy", "reactive")), ("S".toList, ("power", "apparent")),
   ("St".toList, ("energy", "apparent"))]

/-- A file: its header, and for each row the time of the column `TS` in seconds and the values of the other columns in their order. -/
structure AmpdsFile where
  header : List Str
  rows : List (Int × List (Option Rat))

/-- `columnNameMapping[x]` for all columns, convert_ampds.py:73. -/
def ampdsColumns : List Str → Except Err (List (String × String))
  | [] => .ok []
  | c :: cs =>
    match ampdsMapping.lookup c with
    | none => .error .keyError
    | some m =>
      match ampdsColumns cs with
      | .error e => .error e
      | .ok ms => .ok (m :: ms)

/-- The table of a file, convert_ampds.py:66-78. `df["TS"]` is a `KeyError` without such a column; if there are several, `to_datetime` gets a frame,
which is a `ValueError`. -/
def ampdsTable (f : AmpdsFile) : Except Err (RawTable (List Rat)) :=
  let header := f.header.map (fun x => x.filter (fun c => decide (c ≠ ' ')))
  if header.count "TS".toList = 0 then .error .keyError
  else if header.count "TS".toList ≠ 1 then .error .valueError
  else
    match ampdsColumns (header.filter (fun c => decide (c ≠ "TS".toList))) with
    | .error e => .error e
    | .ok columns => .ok ⟨columns, (f.rows.filter (fun r => r.2.all Option.isSome)).map (fun r => (r.1 * 1000000000, r.2.filterMap id))⟩

/-- The loop over the files, convert_ampds.py:63-80: `i` is its index. -/
def ampdsLoop : List (Str × AmpdsFile) → Nat → RawStore (List Rat) → RawStore (List Rat) × Option Err
  | [], _, st => (st, none)
  | f :: fs, i, st =>
    match Key.ofNumbers 1 (some ((i + 1 : Nat) : Int)) with
    | .error e => (st, some e)
    | .ok key =>
      match ampdsTable f.2 with
      | .error e => (st, some e)
      | .ok t =>
        match key.repr with
        | .error e => (st, some e)
        | .ok text => ampdsLoop fs (i + 1) (st.put text t)

/-- The data part of `convert_ampds`, convert_ampds.py:52-80: the directory has names and files (none for other entries). -/
def convertAmpds (dir : Option (List (Str × Option AmpdsFile))) : RawStore (List Rat) × Option Err :=
  match dir with
  | none => (fun _ => none, some .fileNotFound)
  | some entries =>
    let files := (entries.filterMap (fun e => e.2.map (fun f => (e.1, f)))).filter
      (fun f => isIn ".csv".toList f.1 && !isIn ".swp".toList f.1)
    let files := files.insertionSort (fun a b => strLe a.1 b.1 = true)
    match files.find? (fun f => f.1 == "WHE.csv".toList) with
    | none => (fun _ => none, some .valueError)
    | some whole => ampdsLoop (whole :: files.eraseP (fun f => f.1 == "WHE.csv".toList)) 0 (fun _ => none)

/-! ### COMBED -/

/-- `overall_dataset_mapping` and `building_number_mapping`, convert_combed.py:13-28, in the order of the loops: building, its number, load, floor or
wing, meter. -/
def combedMeters : List (String × Nat × String × String × Nat) :=
  [("Academic Block", 1, "Building Total Mains", "0", 1), ("Academic Block", 1, "Lifts", "0", 2), ("Academic Block", 1, "Floor Total", "1", 3),
   ("Academic Block", 1, "Floor Total", "2", 4), ("Academic Block", 1, "Floor Total", "3", 5), ("Academic Block", 1, "Floor Total", "4", 6),
   ("Academic Block", 1, "Floor Total", "5", 7), ("Academic Block", 1, "AHU", "0", 8), ("Academic Block", 1, "AHU", "1", 9),
   ("Academic Block", 1, "AHU", "2", 10), ("Academic Block", 1, "AHU", "5", 11), ("Academic Block", 1, "Light", "3", 12),
   ("Academic Block", 1, "Power Sockets", "3", 13), ("Academic Block", 1, "UPS Sockets", "3", 14),
   ("Lecture Block", 2, "Building Total Mains", "0", 1), ("Lecture Block", 2, "Floor Total", "0", 2), ("Lecture Block", 2, "Floor Total", "1", 3),
   ("Lecture Block", 2, "Floor Total", "2", 4), ("Lecture Block", 2, "AHU", "1", 5), ("Lecture Block", 2, "AHU", "2", 6),
   ("Lecture Block", 2, "AHU", "3", 7)]

/-- `column_mapping`, convert_combed.py:31-34. -/
def combedAttributes : List (String × (String × String)) :=
  [("Power", ("power", "active")), ("Energy", ("energy", "active")), ("Current", ("current", ""))]

/-- The files: in `iiitd` or not, building, load, floor or wing, attribute; rows with the time in milliseconds. -/
abbrev CombedFiles := Bool → String → String → String → String → Option (List (Int × Option Rat))

/-- The file of an attribute, convert_combed.py:61-67. -/
def combedFind (files : CombedFiles) (building load sub attr : String) : Option (List (Int × Option Rat)) :=
  match files false building load sub attr with
  | some f => some f
  | none => files true building load sub attr

/-- The loop over the attributes, convert_combed.py:59-75: the frames with their columns, and `exists`. -/
def combedFrames (find : String → Option (List (Int × Option Rat))) :
    List (String × (String × String)) → List ((String × String) × List (Int × Option Rat)) → Option Bool →
    List ((String × String) × List (Int × Option Rat)) × Option Bool
  | [], dfs, ex => (dfs, ex)
  | a :: as, dfs, _ =>
    match find a.1 with
    | some f => combedFrames find as (dfs ++ [(a.2, f.map (fun r => (r.1 * 1000000, r.2)))]) (some true)
    | none => combedFrames find as dfs (some false)

/-- `pd.concat(dfs, axis=1)` and the check of its index, convert_combed.py:78-82. Frames with equal indices are put beside each other, also if times
occur several times. Otherwise the index is the union of the indices (`union`), and the values are looked up; times that occur several times in one
of them are an error of pandas (`InvalidIndexError`). -/
def combedTable (union : List (List Int) → List Int) (dfs : List ((String × String) × List (Int × Option Rat))) :
    Except Err (RawTable (List (Option Rat))) :=
  let indices := dfs.map (fun d => d.2.map Prod.fst)
  let same := indices.all (fun ix => ix == indices.headD [])
  let index := if same then indices.headD [] else union indices
  if !same && indices.any (fun ix => !decide ix.Nodup) then .error .exception
  else if !decide index.Nodup then .error .assertionError
  else .ok ⟨dfs.map Prod.fst, index.map (fun t => (t, dfs.map (fun d => (d.2.lookup t).join)))⟩

/-- The loops over the meters, convert_combed.py:54-84: the store, the error, and `any_file_converted`. -/
def combedLoop (union : List (List Int) → List Int) (files : CombedFiles) : List (String × Nat × String × String × Nat) →
    RawStore (List (Option Rat)) → Bool → RawStore (List (Option Rat)) × Option Err × Bool
  | [], st, done => (st, none, done)
  | m :: ms, st, done =>
    match Key.ofNumbers m.2.1 (some (m.2.2.2.2 : Int)) with
    | .error e => (st, some e, done)
    | .ok key =>
      match combedFrames (combedFind files m.1 m.2.2.1 m.2.2.2.1) combedAttributes [] none with
      | (dfs, some true) =>
        match combedTable union dfs with
        | .error e => (st, some e, done)
        | .ok t =>
          match key.repr with
          | .error e => (st, some e, done)
          | .ok text => combedLoop union files ms (st.put text t) true
      | (_, some false) => combedLoop union files ms st done
      | (_, none) => (st, some .unboundLocal, done)

/-- The data part of `convert_combed`, convert_combed.py:47-87. -/
def convertCombed (union : List (List Int) → List Int) (files : Option CombedFiles) : RawStore (List (Option Rat)) × Option Err :=
  match files with
  | none => (fun _ => none, some .fileNotFound)
  | some files =>
    match combedLoop union files combedMeters (fun _ => none) false with
    | (st, some e, _) => (st, some e)
    | (st, none, true) => (st, none)
    | (st, none, false) => (st, some .runtimeError)

end Nilmtk
