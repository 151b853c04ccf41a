import Verif.Model.Dropout
import Verif.Model.MeterUptime
/-!
Model of `ElecMeter.dropout_rate` of a meter in an HDF store from the table to the result: `nilmtk/elecmeter.py:597-616`,
`636-768`, with `nilmtk/stats/dropoutrate.py` and `nilmtk/stats/dropoutrateresults.py`.

Nothing is in the cache (for the cache see `Model/Cache.lean`), and no `ac_type`, `physical_quantity`, `columns` or
`preprocessing` is given. Simplification: tables have one column, which is one of the columns of the device.
-/
namespace Nilmtk

/-- `DropoutRate.process`, dropoutrate.py:14-22, over the chunks, with the frames of the chunks. -/
def dropoutOfChunks (sp : Rat) : List (RRow DRow) → List (Chunk (Option Rat)) → Except Err (List (RRow DRow))
  | acc, [] => .ok acc
  | acc, c :: cs =>
    match getDropoutRate (c.rows.map Prod.fst) sp with
    | .error e => .error e
    | .ok rate =>
      match Results.append acc c.timeframe ⟨rate, c.rows.length⟩ with
      | .error e => .error e
      | .ok acc' => dropoutOfChunks sp acc' cs

/-- `_compute_stat`, elecmeter.py:746-768, and `results_obj.update`, elecmeter.py:716. -/
def computeDropout (rows : List (Row (Option Rat))) (sp : Rat) (window : TF) (sections : List TF) (cs : Int) :
    Except Err (List (RRow DRow)) :=
  match dropoutOfChunks sp [] (hdfLoad (some rows) window (some sections) 0 cs).1.out with
  | .error e => .error e
  | .ok computed =>
    match (hdfLoad (some rows) window (some sections) 0 cs).1.err with
    | some e => .error e
    | none =>
      match Results.update [] computed with
      | (_, some e) => .error e
      | (res, none) => .ok res

/-- The sections of `dropout_rate`, elecmeter.py:611-613: `good_sections` gets all the keyword arguments, so with
`full_results` it returns a `GoodSectionsResults`, which is no sequence of sections (`TypeError` at elecmeter.py:681). -/
def dropoutSections (t : RawTable (Option Rat)) (msp : Int) (window : TF) (sections : Option (List TF))
    (ignoreGaps full : Bool) (cs : Int) : Except Err (Option (List TF)) :=
  if ignoreGaps then
    match meterGoodSections (some t) msp window sections cs with
    | .error e => .error e
    | .ok good => if full then .error .typeError else .ok (some good)
  else .ok sections

/-- The results of `ElecMeter.dropout_rate`, elecmeter.py:597-616, 636-731. -/
def meterDropoutResults (t : Option (RawTable (Option Rat))) (sp : Rat) (msp : Int) (window : TF) (sections : Option (List TF))
    (ignoreGaps full : Bool) (cs : Int) : Except Err (List (RRow DRow)) :=
  match t with
  | none => .error .keyError
  | some t =>
    match dropoutSections t msp window sections ignoreGaps full cs with
    | .error e => .error e
    | .ok given =>
      match statSections t.rows window given with
      | .error e => .error e
      | .ok [] => .ok []
      | .ok (s :: ss) => computeDropout t.rows sp window (s :: ss) cs

/-- `ElecMeter.dropout_rate()`: `results_obj.simple()`, elecmeter.py:732. Results without a row have no column `n_samples`
(results.py:30, dropoutrateresults.py:24): `KeyError`. -/
def meterDropoutRate (t : Option (RawTable (Option Rat))) (sp : Rat) (msp : Int) (window : TF) (sections : Option (List TF))
    (ignoreGaps : Bool) (cs : Int) : Except Err Rat :=
  match meterDropoutResults t sp msp window sections ignoreGaps false cs with
  | .error e => .error e
  | .ok rows => if rows.isEmpty then .error .keyError else .ok (dropoutCombined (rows.map RRow.val))

end Nilmtk
