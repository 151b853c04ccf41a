import Verif.Model.DataSet
import Verif.Model.Redd
import Mathlib.Algebra.Order.Ring.Rat
/-!
Model of the converter of the ECO dataset, nilmtk/dataset_converters/eco/convert_eco.py: folders of smart meters and of plugs,
with one file per day and one line per second.

A directory is the list of its entries in the order of `listdir`. Every file has the columns that the converter gives names to.
The number of seconds in a day is the parameter `n` of the functions, 86400 in `convertEco`. The reading of a day in the
name of a file and the formula `P * tan(angle * pi / 180)` of the reactive power are inputs. Rounding of cells to 32-bit floats,
the time zone (`tz_convert` changes how times are shown only), the metadata and printing are not modelled. HDF5 stores no empty tables:
`put` and `append` of a frame without rows leave the store as it is.
-/
namespace Nilmtk

/-- A line of a file: its cells by column, from 1; `none` is NaN. -/
abbrev EcoRow := Nat → Option Rat

/-- The files in a directory. -/
abbrev EcoFiles := List (Str × List EcoRow)

/-- A directory: its files and its subdirectories. -/
structure EcoSub where
  files : EcoFiles
  subs : List (Str × EcoFiles)

/-- `listdir(dataset_loc)`: every folder with its subdirectories, `none` for what is no directory. -/
abbrev EcoTree := List (Str × Option (List (Str × EcoSub)))

/-- The inputs besides the files: the time of `pd.date_range(start=s)` in nanoseconds, if `s` can be read as a time, and the reactive
power of an active power and an angle. -/
structure EcoConfig where
  day : Str → Option Int
  reactive : Rat → Rat → Rat

/-- The state of the conversion: the store, `found_any_sm` and `found_any_plug`. -/
structure EcoState where
  store : RawStore (List (Option Rat))
  sm : Bool
  plug : Bool

/-- `pat in s` for strings. -/
def hasText (pat : Str) : Str → Bool
  | [] => pat.isPrefixOf []
  | c :: cs => pat.isPrefixOf (c :: cs) || hasText pat cs

/-- A loop whose body may raise: the state and the error that ended it. -/
def ecoLoop {α σ : Type} (body : α → σ → σ × Option Err) : List α → σ → σ × Option Err
  | [], s => (s, none)
  | a :: as, s =>
    match body a s with
    | (s', some e) => (s', some e)
    | (s', none) => ecoLoop body as s'

/-- `str(Key(building=b, meter=m))`, convert_eco.py:104, 148. -/
def ecoKey (b m : Int) : Except Err Str :=
  match Key.ofNumbers b (some m) with
  | .error e => .error e
  | .ok key => key.repr

/-- `df.index = pd.date_range(start=..., freq='s', periods=n)`, convert_eco.py:112, 158: `ValueError` for a bad start and for another
number of rows. -/
def ecoIndex {α : Type} (n : Nat) (start : Option Int) (rows : List α) : Except Err (List (Int × α)) :=
  match start with
  | none => .error .valueError
  | some t =>
    if rows.length = n then .ok (rows.zipIdx.map (fun r => (t + (r.2 : Int) * 1000000000, r.1)))
    else .error .valueError

/-- `put` if the key is not in the store and `append` otherwise, convert_eco.py:136-140, 170-175. Appending to a table with other
columns raises `ValueError`. -/
def ecoStore (st : RawStore (List (Option Rat))) (k : Str) (t : RawTable (List (Option Rat))) :
    RawStore (List (Option Rat)) × Option Err :=
  if t.rows.isEmpty then (st, none)
  else
    match st k with
    | none => (st.put k t, none)
    | some t' => if t'.columns = t.columns then (st.put k ⟨t'.columns, t'.rows ++ t.rows⟩, none) else (st, some .valueError)

/-- `sm_column_name` in the order of the columns of `df_phase`, convert_eco.py:105, 110, 115-124. -/
def ecoSmColumns : List (String × String) :=
  [("power", "active"), ("current", ""), ("voltage", ""), ("phase_angle", ""), ("power", "reactive")]

/-- `power[:,0] * np.tan(power[:,1] * np.pi / 180)`, convert_eco.py:109. -/
def ecoReactive (cfg : EcoConfig) : Option Rat → Option Rat → Option Rat
  | some p, some a => some (cfg.reactive p a)
  | _, _ => none

/-- A row of `df_phase`, convert_eco.py:105-110. -/
def ecoSmCells (cfg : EcoConfig) (phase : Nat) (r : EcoRow) : List (Option Rat) :=
  [r (1 + phase), r (5 + phase), r (8 + phase), r (13 + phase), ecoReactive cfg (r (1 + phase)) (r (13 + phase))]

/-- One phase of a file of a smart meter, convert_eco.py:103-142. -/
def ecoPhase (n : Nat) (cfg : EcoConfig) (building : Int) (name : Str) (rows : List EcoRow) (phase : Nat) (s : EcoState) :
    EcoState × Option Err :=
  match ecoKey building (phase : Int) with
  | .error e => (s, some e)
  | .ok key =>
    match ecoIndex n (cfg.day (name.take (name.length - 4))) (rows.map (ecoSmCells cfg phase)) with
    | .error e => (s, some e)
    | .ok rs =>
      match ecoStore s.store key ⟨ecoSmColumns, rs.filter (fun r => decide (r.2.headD none ≠ some (-1)))⟩ with
      | (st, e) => (⟨st, s.sm, s.plug⟩, e)

/-- A file of a smart meter, convert_eco.py:99-142. -/
def ecoSmFile (n : Nat) (cfg : EcoConfig) (building : Int) (f : Str × List EcoRow) (s : EcoState) : EcoState × Option Err :=
  ecoLoop (ecoPhase n cfg building f.1 f.2) [1, 2, 3] ⟨s.store, true, s.plug⟩

/-- A file of a plug, convert_eco.py:155-176. -/
def ecoPlugFile (n : Nat) (cfg : EcoConfig) (key : Str) (f : Str × List EcoRow) (s : EcoState) : EcoState × Option Err :=
  match ecoIndex n (cfg.day ((f.1.take (f.1.length - 4)).map (fun c => if c = '.' then ':' else c))) (f.2.map (fun r => [r 1])) with
  | .error e => (⟨s.store, s.sm, true⟩, some e)
  | .ok rs =>
    match ecoStore s.store key ⟨[("power", "active")], rs.filter (fun r => decide (r.2.headD none ≠ some (-1)))⟩ with
    | (st, e) => (⟨st, s.sm, true⟩, e)

/-- `fl_dir_list`, convert_eco.py:95-96. -/
def ecoCsvs (files : EcoFiles) : EcoFiles :=
  (files.filter (fun f => hasText ".csv".toList f.1)).insertionSort (fun a b => strLe a.1 b.1 = true)

/-- One round of the loop over the subfolders, convert_eco.py:92-176. -/
def ecoSubfolder (n : Nat) (cfg : EcoConfig) (building : Int) (plugs : Bool) (fl : Str × EcoFiles) (s : EcoState) :
    EcoState × Option Err :=
  if plugs = false then ecoLoop (ecoSmFile n cfg building) (ecoCsvs fl.2) s
  else
    match pyInt fl.1 with
    | none => (s, some .valueError)
    | some i =>
      match ecoKey building (i + 3) with
      | .error e => (s, some e)
      | .ok key =>
        if (ecoCsvs fl.2).isEmpty then (s, some .runtimeError)
        else ecoLoop (ecoPlugFile n cfg key) (ecoCsvs fl.2) s

/-- `dir_list`, convert_eco.py:82-88, with the files of every subfolder. -/
def ecoDirList (plugs : Bool) (folder : Str) (content : List (Str × EcoSub)) : Except Err (List (Str × EcoFiles)) :=
  let dirs := content.insertionSort (fun a b => strLe a.1 b.1 = true)
  if plugs = true ∧ dirs.length < 3 then
    match dirs.lookup (folder.take 2) with
    | none => .error .fileNotFound
    | some sub => .ok sub.subs
  else .ok (dirs.map (fun d => (d.1, d.2.files)))

/-- One round of the loop over the folders, convert_eco.py:64-176. The `listdir` of what is no directory raises an `OSError`. -/
def ecoFolder (n : Nat) (cfg : EcoConfig) (f : Str × Option (List (Str × EcoSub))) (s : EcoState) : EcoState × Option Err :=
  if f.1.head? = some '.' ∨ f.1.drop (f.1.length - 3) = ".h5".toList then (s, none)
  else
    match pyInt (f.1.take 2) with
    | none => (s, some .valueError)
    | some building =>
      if hasText "sm_csv".toList f.1 = false ∧ hasText "plugs".toList f.1 = false then (s, none)
      else
        let plugs := !hasText "sm_csv".toList f.1
        match f.2 with
        | none => (s, some .fileNotFound)
        | some content =>
          match ecoDirList plugs f.1 content with
          | .error e => (s, some e)
          | .ok dirs => ecoLoop (ecoSubfolder n cfg building plugs) dirs s

/-- `directory_list`, convert_eco.py:56-57. -/
def ecoFolders (tree : EcoTree) : EcoTree :=
  (tree.filter (fun f => !hasText ".txt".toList f.1)).insertionSort (fun a b => strLe a.1 b.1 = true)

/-- The readings that `convert_eco` stores, convert_eco.py:52-180, with days of `n` seconds. -/
def ecoConvert (n : Nat) (cfg : EcoConfig) (tree : EcoTree) : RawStore (List (Option Rat)) × Option Err :=
  match ecoLoop (ecoFolder n cfg) (ecoFolders tree) ⟨fun _ => none, false, false⟩ with
  | (s, some e) => (s.store, some e)
  | (s, none) => (s.store, if s.plug = false ∨ s.sm = false then some .runtimeError else none)

/-- The readings that `convert_eco` stores, convert_eco.py:38-183. A path that does not exist is an `IOError` (utils.py:256-258), after the
new file has been created. -/
def convertEco (cfg : EcoConfig) (path : Option EcoTree) : RawStore (List (Option Rat)) × Option Err :=
  match path with
  | none => (fun _ => none, some .fileNotFound)
  | some tree => ecoConvert 86400 cfg tree

end Nilmtk
