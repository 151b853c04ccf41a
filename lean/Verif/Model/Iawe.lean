import Verif.Model.Ampds
import Verif.Model.Metrics
/-!
Model of the conversion of iAWE: nilmtk/dataset_converters/iawe/convert_iawe.py, for pandas before 2.0 (later `df.drop("timestamp", 1)` is a
`TypeError`).

Files are given as `pd.read_csv` reads them, with a time in every row. The order that `DataFrame.sort_index` gives to rows with equal times is an
input (there are none, as they were dropped). Simplification: no two columns of a file have the same meaning. Time zones, 32 bit rounding, metadata
and printing are not modelled.
-/
namespace Nilmtk

/-- `column_mapping`, convert_iawe.py:26-42. -/
def iaweMapping : List (Str × (String × String)) :=
  [("frequency".toList, ("frequency", "")), ("voltage".toList, ("voltage", "")), ("W".toList, ("power", "active")),
   ("energy".toList, ("energy", "apparent")), ("A".toList, ("current", "")), ("reactive_power".toList, ("power", "reactive")),
   ("apparent_power".toList, ("power", "apparent")), ("power_factor".toList, ("pf", "")), ("PF".toList, ("pf", "")),
   ("phase_angle".toList, ("phi", "")), ("VA".toList, ("power", "apparent")), ("VAR".toList, ("power", "reactive")),
   ("VLN".toList, ("voltage", "")), ("V".toList, ("voltage", "")), ("f".toList, ("frequency", ""))]

/-- A file: its header, and for each row the time of the column `timestamp` in nanoseconds and the values of the other columns in their order. -/
structure IaweFile where
  header : List Str
  rows : List (Int × List (Option Rat))

/-- A minute in nanoseconds. -/
def iaweMinute : Int := 60000000000

/-- `idx`, convert_iawe.py:45-47, 61-62: the minutes from 2013-07-13 to 2013-08-04. -/
def iaweIndex : List Int := (List.range 31681).map (fun i : Nat => 1373673600000000000 + i * iaweMinute)

/-- `column_mapping[x]` for all columns, convert_iawe.py:79. -/
def iaweColumns : List Str → Except Err (List (String × String))
  | [] => .ok []
  | c :: cs =>
    match iaweMapping.lookup c with
    | none => .error .keyError
    | some m =>
      match iaweColumns cs with
      | .error e => .error e
      | .ok ms => .ok (m :: ms)

/-- `Series.median()`. -/
def medianOf (l : List Rat) : Option Rat :=
  let s := l.insertionSort (· ≤ ·)
  if s.isEmpty then none
  else if s.length % 2 = 1 then s[s.length / 2]?
  else
    match s[s.length / 2 - 1]?, s[s.length / 2]? with
    | some a, some b => some ((a + b) / 2)
    | _, _ => none

/-- The value of a column at a time of the index after `reindex_fill_na`, convert_iawe.py:10-23, where `r` is the column before. -/
def iaweFill (quantity : String) (r : PSeries) (t : Int) : Option Rat :=
  match r.at t with
  | some v => some v
  | none => if quantity = "power" then some 0 else medianOf (r.filterMap Prod.snd)

/-- The table of a file, convert_iawe.py:73-88. -/
def iaweTable (sort : List (Int × List (Option Rat)) → List (Int × List (Option Rat))) (f : IaweFile) : Except Err (RawTable (List Rat)) :=
  if "timestamp".toList ∉ f.header then .error .keyError
  else
    match iaweColumns (f.header.filter (fun c => decide (c ≠ "timestamp".toList))) with
    | .error e => .error e
    | .ok columns =>
      let rows := sort ((dropDups [] f.rows).filter (fun r => r.2.all Option.isSome))
      let means := columns.zipIdx.map (fun c => (c.1.1, resampleMean iaweMinute (rows.map (fun r => (r.1, (r.2[c.2]?).join)))))
      let filled := iaweIndex.map (fun t => (t, means.map (fun c => iaweFill c.1 c.2 t)))
      if filled.any (fun r => r.2.any Option.isNone) then .error .assertionError
      else .ok ⟨columns, filled.map (fun r => (r.1, r.2.filterMap id))⟩

/-- The loop over the channels, convert_iawe.py:69-89: `n` channels are left, `chan` is the next. -/
def iaweLoop (sort : List (Int × List (Option Rat)) → List (Int × List (Option Rat))) (files : Nat → Option IaweFile) :
    Nat → Nat → RawStore (List Rat) → RawStore (List Rat) × Option Err
  | 0, _, st => (st, none)
  | n + 1, chan, st =>
    match Key.ofNumbers 1 (some (chan : Int)) with
    | .error e => (st, some e)
    | .ok key =>
      match files chan with
      | none => (st, some .fileNotFound)
      | some f =>
        match iaweTable sort f with
        | .error e => (st, some e)
        | .ok t =>
          match key.repr with
          | .error e => (st, some e)
          | .ok text => iaweLoop sort files n (chan + 1) (st.put text t)

/-- The data part of `convert_iawe`, convert_iawe.py:60-89: the files by number, if the directory is there. -/
def convertIawe (sort : List (Int × List (Option Rat)) → List (Int × List (Option Rat))) (files : Option (Nat → Option IaweFile)) :
    RawStore (List Rat) × Option Err :=
  match files with
  | none => (fun _ => none, some .fileNotFound)
  | some files => iaweLoop sort files 11 1 (fun _ => none)

end Nilmtk
