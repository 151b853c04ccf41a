import Verif.Model.Eco
/-!
Model of the converter of the SMART* dataset, nilmtk/dataset_converters/smart/convert_smart.py: a directory per home, in it a directory per year,
in it tables (`.csv`) with their descriptions (`.txt`).

The path of the dataset is absolute in `convertSmart`; `convertSmartRelative` is the run for other paths. Directories come in the order of
`listdir`, descriptions in the order of `glob`. The reading of a time is an input (nanoseconds, `none` if it cannot be read); a missing time
is `NaT`, the smallest 64-bit number. Cells of the other columns are numbers or NaN, of an arbitrary type `α`. The time zone (`tz_convert`
changes how times are shown only), the metadata and printing are not modelled. A `MergeError` of pandas is a `ValueError`.
-/
namespace Nilmtk

/-- A table that is read from a file: the number of its rows, the column `Date & Time` if there is one, and the other columns in their order. -/
structure SmartCsv (α : Type) where
  rows : Nat
  date : Option (List (Option Str))
  cols : List (Str × List (Option α))

/-- The directory of a year: its name, the lines of its descriptions and its tables by name. -/
structure SmartDir (α : Type) where
  year : Str
  texts : List (List Str)
  csv : Str → Option (SmartCsv α)

/-- The path of the dataset: the years of the directories `HomeA`, `HomeB` and `HomeC`, `none` if there is no such directory. -/
abbrev SmartTree (α : Type) := Char → Option (List (SmartDir α))

/-- A frame without times: the number of its rows and its columns. -/
structure SmartFrame (α : Type) where
  rows : Nat
  cols : List (Str × List (Option α))

/-- The names of the columns of a frame. -/
def SmartFrame.names {α : Type} (f : SmartFrame α) : List Str := f.cols.map Prod.fst

/-- The columns that `_preprocess_csv` drops, besides `Date & Time`, convert_smart.py:156-178. -/
def smartDropped : List Str :=
  ["Solar [kW]".toList, "Grid [kW]".toList, "Usage [kW]".toList, "use [kW]".toList, "gen [kW]".toList, "Generation [kW]".toList,
    "grid [kW]".toList]

/-- `_preprocess_csv`, convert_smart.py:156-178. -/
def smartClean {α : Type} (t : SmartCsv α) : SmartFrame α := ⟨t.rows, t.cols.filter (fun c => decide (c.1 ∉ smartDropped))⟩

/-- A column with the rows `0 .. n-1`: cells that are missing are NaN. -/
def smartFit {β : Type} (n : Nat) (col : List (Option β)) : List (Option β) := (List.range n).map (fun i => col.getD i none)

/-- A new name occurs twice though the old one did not: pandas refuses such suffixes. The arguments are pairs of the old and the new name. -/
def newDup : List (Str × Str) → List (Str × Str) → Bool
  | _, [] => false
  | seen, p :: ps => (decide (p.2 ∈ seen.map Prod.snd) && decide (p.1 ∉ seen.map Prod.fst)) || newDup (seen ++ [p]) ps

/-- The name with a suffix if the other frame has it too. -/
def smartSuffix (other : List Str) (suffix : String) (name : Str) : Str := if name ∈ other then name ++ suffix.toList else name

/-- `left.join(right, lsuffix='_1', rsuffix='_2')`, convert_smart.py:123-128: the rows of the left frame. -/
def smartJoin {α : Type} (l r : SmartFrame α) : Except Err (SmartFrame α) :=
  if newDup [] (l.names.map (fun c => (c, smartSuffix r.names "_1" c))) || newDup [] (r.names.map (fun c => (c, smartSuffix l.names "_2" c))) then
    .error .valueError
  else
    .ok ⟨l.rows, l.cols.map (fun c => (smartSuffix r.names "_1" c.1, c.2)) ++
      r.cols.map (fun c => (smartSuffix l.names "_2" c.1, smartFit l.rows c.2))⟩

/-- `reduce(..., data_frames)`, convert_smart.py:123-128. -/
def smartReduce {α : Type} : SmartFrame α → List (SmartFrame α) → Except Err (SmartFrame α)
  | l, [] => .ok l
  | l, r :: rs =>
    match smartJoin l r with
    | .error e => .error e
    | .ok f => smartReduce f rs

/-- `mains_df`, convert_smart.py:112-115. -/
def smartUse {α : Type} (t : SmartCsv α) : Option (List (Option α)) :=
  match t.cols.lookup "use [kW]".toList with
  | some c => some c
  | none => t.cols.lookup "Usage [kW]".toList

/-- The data of one or more years: times and columns. -/
structure SmartYears (α : Type) where
  times : List (Option Str)
  cols : List (Str × List (Option α))

/-- The names of the columns. -/
def SmartYears.names {α : Type} (f : SmartYears α) : List Str := f.cols.map Prod.fst

/-- `date_time_df` after the first table of a year, convert_smart.py:116-117. -/
def smartDates {α : Type} (last : Option (List (Option Str))) (t : SmartCsv α) : Option (List (Option Str)) :=
  match t.date with
  | some d => some d
  | none => last

/-- A year with the tables `t :: ts`, convert_smart.py:96-132; `last` is `date_time_df`. Frames without rows take over the rows of the times that
are inserted. A frame without columns cannot be inserted: `ValueError`. -/
def smartYear {α : Type} (last : Option (List (Option Str))) (t : SmartCsv α) (ts : List (SmartCsv α)) : Except Err (SmartYears α) :=
  match smartReduce (smartClean t) (ts.map smartClean) with
  | .error e => .error e
  | .ok f =>
    match smartDates last t with
    | none => .error .unboundLocal
    | some d =>
      match smartUse t with
      | none => .error .valueError
      | some u =>
        if "use".toList ∈ f.names then .error .valueError
        else
          let n := if f.rows = 0 then d.length else f.rows
          .ok ⟨smartFit n d, ("use".toList, smartFit n u) :: f.cols.map (fun c => (c.1, smartFit n c.2))⟩

/-- A column of a frame by name; NaN if it is missing. -/
def smartColumn {α : Type} (f : SmartYears α) (name : Str) : List (Option α) :=
  match f.cols.lookup name with
  | some c => c
  | none => List.replicate f.times.length none

/-- `pd.concat([df_all_years, df_year], ignore_index=True, sort=False)`, convert_smart.py:134. Frames whose columns differ are aligned by name,
which fails if a name occurs twice. -/
def smartConcat {α : Type} (a b : SmartYears α) : Except Err (SmartYears α) :=
  if a.names = b.names then .ok ⟨a.times ++ b.times, (a.cols.zip b.cols).map (fun p => (p.1.1, p.1.2 ++ p.2.2))⟩
  else if a.names.Nodup ∧ b.names.Nodup then
    .ok ⟨a.times ++ b.times,
      (a.names ++ b.names.filter (fun c => decide (c ∉ a.names))).map (fun c => (c, smartColumn a c ++ smartColumn b c))⟩
  else .error .exception

/-- `_find_all_csv_paths`, convert_smart.py:217-246: the names of the tables in which `30` is found in the last but one line of the description. -/
def smartPaths (year : Str) : List (List Str) → Except Err (List Str)
  | [] => .ok []
  | lines :: texts =>
    match lines, lines.reverse with
    | first :: _, _ :: period :: _ =>
      match smartPaths year texts with
      | .error e => .error e
      | .ok ps =>
        if hasText "30".toList period then .ok ((first.filter (fun c => decide (c ≠ '\n')) ++ '_' :: year ++ ".csv".toList) :: ps)
        else .ok ps
    | _, _ => .error .indexError

/-- `pd.read_csv(path)`, convert_smart.py:109. -/
def smartRead {α : Type} (dir : SmartDir α) (path : Str) : Except Err (SmartCsv α) :=
  match dir.csv path with
  | none => .error .fileNotFound
  | some t => .ok t

/-- What the loop over the years goes on with: `date_time_df` and `df_all_years`. -/
structure SmartState (α : Type) where
  last : Option (List (Option Str))
  all : Option (SmartYears α)

/-- One round of the loop over the years, convert_smart.py:95-134. -/
def smartRound {α : Type} (dir : SmartDir α) (s : SmartState α) : Except Err (SmartState α) :=
  match smartPaths dir.year dir.texts with
  | .error e => .error e
  | .ok paths =>
    match mapE (smartRead dir) paths with
    | .error e => .error e
    | .ok [] => .ok s
    | .ok (t :: ts) =>
      match smartYear s.last t ts with
      | .error e => .error e
      | .ok y =>
        match s.all with
        | none => .ok ⟨smartDates s.last t, some y⟩
        | some a =>
          match smartConcat a y with
          | .error e => .error e
          | .ok b => .ok ⟨smartDates s.last t, some b⟩

/-- The loop over the years, convert_smart.py:95-134. -/
def smartRounds {α : Type} : List (SmartDir α) → SmartState α → Except Err (SmartState α)
  | [], s => .ok s
  | d :: ds, s =>
    match smartRound d s with
    | .error e => .error e
    | .ok s' => smartRounds ds s'

/-- `NaT`. -/
def notATime : Int := -9223372036854775808

/-- `pd.to_datetime(..., utc=True)`, convert_smart.py:136-137. -/
def smartTime (parse : Str → Option Int) : Option Str → Except Err Int
  | none => .ok notATime
  | some s =>
    match parse s with
    | none => .error .valueError
    | some t => .ok t

/-- The loop over the columns, convert_smart.py:142-152, from the meter `k` on: a column whose name occurs twice is a frame with two columns, which
`ValueError` refuses to rename. HDF5 stores no empty tables, so that their index cannot be created. -/
def smartPut {α : Type} (building : Nat) (times : List Int) (names : List Str) :
    Nat → List (Str × List (Option α)) → RawStore (Option α) → RawStore (Option α) × Option Err
  | _, [], st => (st, none)
  | k, c :: cs, st =>
    match ecoKey (building : Int) (k : Int) with
    | .error e => (st, some e)
    | .ok key =>
      if names.count c.1 ≠ 1 then (st, some .valueError)
      else if times.isEmpty then (st, some .keyError)
      else smartPut building times names (k + 1) cs (st.put key ⟨[("power", "active")], times.zip c.2⟩)

/-- The state of the conversion: the store and `date_time_df`. -/
abbrev SmartRun (α : Type) := RawStore (Option α) × Option (List (Option Str))

/-- A home, convert_smart.py:87-153. -/
def smartHome {α : Type} (parse : Str → Option Int) (tree : SmartTree α) (h : Char × Nat) (s : SmartRun α) : SmartRun α × Option Err :=
  match tree h.1 with
  | none => (s, some .fileNotFound)
  | some dirs =>
    match smartRounds dirs ⟨s.2, none⟩ with
    | .error e => (s, some e)
    | .ok ⟨_, none⟩ => (s, some .keyError)
    | .ok ⟨last, some a⟩ =>
      match mapE (smartTime parse) a.times with
      | .error e => (s, some e)
      | .ok times =>
        match smartPut h.2 times a.names 1 a.cols s.1 with
        | (st, e) => ((st, last), e)

/-- `_convert`, convert_smart.py:64-153, with the homes of `_find_all_houses`, convert_smart.py:181-193. -/
def convertSmart {α : Type} (parse : Str → Option Int) (tree : SmartTree α) : SmartRun α × Option Err :=
  ecoLoop (smartHome parse tree) [('A', 1), ('B', 2), ('C', 3)] (fun _ => none, none)

/-- `_convert` with a path that is not absolute: `os.chdir`, convert_smart.py:225, leads to the directory of the first year of home A, from which the
path leads nowhere. -/
def convertSmartRelative {α : Type} (tree : SmartTree α) : RawStore (Option α) × Option Err :=
  match tree 'A' with
  | none => (fun _ => none, some .fileNotFound)
  | some [] => (fun _ => none, some .keyError)
  | some [_] => (fun _ => none, some .keyError)
  | some (_ :: _ :: _) => (fun _ => none, some .fileNotFound)

end Nilmtk
