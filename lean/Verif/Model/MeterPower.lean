import Verif.Model.Energy
import Verif.Model.Measurement
import Verif.Model.HDF
import Verif.Model.Redd
/-!
Model of `Electric.power_series` and `power_series_all_data` of a meter in an HDF store, from the table to the result:
`nilmtk/electric.py:103-120`, `607-652`, `nilmtk/elecmeter.py:360-460`, `514-577`.

Simplification: no `sample_period`, `resample`, `preprocessing` or `columns` is given; the name of a series is left out.
-/
namespace Nilmtk

/-- The columns of the data loaded, hdfdatastore.py:116-117 with `pandas` `_reindex_axis`: those asked for which the table has,
in the order in which they are asked for. -/
def loadedColumns (held asked : List Col) : List Col := asked.filter (fun c => c ∈ held)

/-- The values of a row in the columns loaded. -/
def loadedCells (held asked : List Col) (cells : List (Option Rat)) : List (Option Rat) :=
  (loadedColumns held asked).map (fun c => ((held.zip cells).lookup c).join)

/-- `sum(axis=1, skipna=False)` of a row, electric.py:629: `NaN` if one of the values is. -/
def sumStrict : List (Option Rat) → Option Rat
  | [] => some 0
  | none :: _ => none
  | some x :: xs => (sumStrict xs).map (x + ·)

/-- What `load_series` yields for a row: the sum, or (the chunk is `empty` when it has no columns, electric.py:626-628) nothing
but the time. -/
inductive PowerCell where
  | noColumn
  | power (v : Option Rat)
  deriving DecidableEq, Repr

/-- A row of the series yielded, electric.py:626-629. -/
def powerCell (held asked : List Col) (cells : List (Option Rat)) : PowerCell :=
  if loadedColumns held asked = [] then .noColumn else .power (sumStrict (loadedCells held asked cells))

/-- A chunk of `load_series`, electric.py:625-634. -/
def seriesChunk (held asked : List Col) (c : Chunk (List (Option Rat))) : Chunk PowerCell :=
  ⟨c.rows.map (fun r => (r.1, powerCell held asked r.2)), c.timeframe,
    c.look.map (fun l => l.map (fun r => (r.1, powerCell held asked r.2)))⟩

/-- `Electric.power_series`, electric.py:636-652 (`ac = none`: no `ac_type` is given), with `ElecMeter.load`. `t` is `none` when
the store has no table for the meter. -/
def meterPowerSeries (t : Option (RawTable (List (Option Rat)))) (ms : List Measurement) (ac : Option Req) (window : TF)
    (sections : Option (List TF)) (cs : Int) : Gen (Chunk PowerCell) :=
  match convertToCols ms (.one "power") (ac.getD (.one "best")) none with
  | .error e => Gen.raise e
  | .ok asked =>
    let g := (hdfLoad (t.map RawTable.rows) window sections 0 cs).1
    ⟨g.out.map (seriesChunk ((t.map RawTable.columns).getD []) asked), g.err⟩

/-- `Electric.power_series_all_data`, electric.py:103-120, of a meter. -/
def meterPowerAllData (t : Option (RawTable (List (Option Rat)))) (ms : List Measurement) (ac : Option Req) (window : TF)
    (sections : Option (List TF)) (cs : Int) : Except Err (Option (List (Row PowerCell))) :=
  powerSeriesAllDataGen (meterPowerSeries t ms ac window sections cs)

/-- A table with one column, as the converter of REDD writes it. -/
def wide (t : RawTable (Option Rat)) : RawTable (List (Option Rat)) := ⟨t.columns, t.rows.map (fun r => (r.1, [r.2]))⟩

end Nilmtk
