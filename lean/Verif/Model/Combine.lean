import Verif.Model.Py
import Verif.Model.TimeFrame
import Mathlib.Algebra.Order.Ring.Rat
/-!
Model of `combine_chunks_from_generators`, `nilmtk/metergroup.py:1766-1863`.
-/
namespace Nilmtk

/-- A column name: physical quantity and AC type. -/
abbrev ColName := String × String

/-- The first chunk yielded by a meter's `load`: column names, rows (timestamp and one reading per column, `none` is
NaN) and the `timeframe` attribute. -/
structure GChunk where
  cols : List ColName
  rows : List (Int × List (Option Rat))
  timeframe : Option TF

/-- `chunk[column].reindex(index)` at one timestamp: the reading of that row, NaN when there is no such row. -/
def GChunk.reading (c : GChunk) (col : ColName) (t : Int) : Option Rat :=
  match c.rows.find? (fun r => r.1 == t) with
  | none => none
  | some r => r.2.getD (c.cols.idxOf col) none

/-- `PHYSICAL_QUANTITIES_TO_AVERAGE`, measurement.py:13. -/
def quantitiesToAverage : List String := ["voltage", "pf", "frequency", "power factor", "phase_angle"]

/-- The `columns_to_average_counter` data frame: its columns and its cells (`none`: NaN, or no such row). -/
structure Counter where
  cols : List String
  cell : String → Int → Option Nat

/-- The state of the loop: `cumulator` (one list of readings per column, one reading per timestamp of the index),
`columns_to_average_counter` and `timeframe`. Simplification: rational numbers instead of `float32`. -/
structure CState where
  cum : List (List (Option Rat))
  counter : Counter
  timeframe : Option TF

/-- `np.nansum` of two cells, with NaN restored where both are NaN, metergroup.py:1827-1830. -/
def addNan : Option Rat → Option Rat → Option Rat
  | none, none => none
  | a, b => some (a.getD 0 + b.getD 0)

/-- The loop over the columns, metergroup.py:1818-1830. `reindex` raises `ValueError` when the chunk has repeated
timestamps. -/
def addColumns (index : List Int) (c : GChunk) : List ColName → List (List (Option Rat)) →
    Except Err (List (List (Option Rat)))
  | [], cum => .ok cum
  | _, [] => .ok []
  | col :: cols, cells :: cum =>
    match addColumns index c cols cum with
    | .error e => .error e
    | .ok rest =>
      if c.cols.contains col then
        if (c.rows.map Prod.fst).Nodup then .ok (List.zipWith addNan cells (index.map (c.reading col)) :: rest)
        else .error .valueError
      else .ok (cells :: rest)

/-- The quantities of this chunk that have to be averaged, metergroup.py:1837-1839. -/
def columnsToAverage (c : GChunk) : List String :=
  quantitiesToAverage.filter (fun q => (c.cols.map Prod.fst).contains q)

/-- `columns_to_average_counter.add(counter_increment, fill_value=0)`, metergroup.py:1840-1845: cells present on neither
side stay NaN. -/
def updateCounter (k : Counter) (c : GChunk) : Counter where
  cols := k.cols ++ (columnsToAverage c).filter (fun q => !k.cols.contains q)
  cell := fun q t =>
    let inc : Option Nat := if (columnsToAverage c).contains q && (c.rows.map Prod.fst).contains t then some 1 else none
    match k.cell q t, inc with
    | none, none => none
    | a, b => some (a.getD 0 + b.getD 0)

/-- The body of the loop over the meters, metergroup.py:1797-1849. `none` is a meter whose generator is exhausted at
once. In Python 3 a `TimeFrame` is always true (no `__bool__`), so `not chunk.timeframe` means `None`. -/
def combineStep (index : List Int) (columns : List ColName) (st : CState) : Option GChunk → Except Err CState
  | none => .ok st
  | some c =>
    if c.rows = [] ∨ c.cols = [] then .ok st
    else
      match c.timeframe with
      | none => .ok st
      | some tf =>
        match (match st.timeframe with | none => Except.ok tf | some t => t.union tf) with
        | .error e => .error e
        | .ok tf' =>
          match addColumns index c columns st.cum with
          | .error e => .error e
          | .ok cum' => .ok ⟨cum', updateCounter st.counter c, some tf'⟩

/-- The loop over the meters, metergroup.py:1796-1849. -/
def combineMeters (index : List Int) (columns : List ColName) (st : CState) : List (Option GChunk) → Except Err CState
  | [] => .ok st
  | m :: ms =>
    match combineStep index columns st m with
    | .error e => .error e
    | .ok st' => combineMeters index columns st' ms

/-- `cumulator[column] /= columns_to_average_counter[column]` in one cell, metergroup.py:1856. -/
def divCell : Option Rat → Option Nat → Option Rat
  | some v, some n => some (v / n)
  | _, _ => none

/-- The division loop, metergroup.py:1855-1856: `KeyError` when a counted quantity is not among the columns.
Simplification: the averaged quantities have the empty AC type, as in the metadata (with other AC types pandas would
align the counter with the columns). -/
def divideColumns (index : List Int) (columns : List ColName) (st : CState) : Except Err (List (List (Option Rat))) :=
  if st.counter.cols.any (fun q => !(columns.map Prod.fst).contains q) then .error .keyError
  else .ok (List.zipWith (fun col cells =>
    if st.counter.cols.contains col.1 then List.zipWith (fun v t => divCell v (st.counter.cell col.1 t)) cells index
    else cells) columns st.cum)

/-- `combine_chunks_from_generators`, metergroup.py:1766-1863: the readings by column and timestamp, and the
`timeframe`. The meters are given by their first chunks. -/
def combineChunks (index : List Int) (columns : List ColName) (meters : List (Option GChunk)) :
    Except Err (List (List (Option Rat)) × Option TF) :=
  match combineMeters index columns
    ⟨columns.map (fun _ => index.map (fun _ => none)), ⟨[], fun _ _ => none⟩, none⟩ meters with
  | .error e => .error e
  | .ok st =>
    match divideColumns index columns st with
    | .error e => .error e
    | .ok cells => .ok (cells, st.timeframe)

end Nilmtk
