import Verif.Model.GSCache
import Verif.Model.MeterEnergy
/-!
Model of `ElecMeter.good_sections`, `Electric.uptime` and `proportion_uptime` of a meter in an HDF store from the table to the
result: `nilmtk/elecmeter.py:618-744`, `nilmtk/electric.py:226-234`, `nilmtk/metergroup.py:1716-1726`.

Nothing is in the cache (for the cache see `Model/GSCache.lean`) and there is no preprocessing. `max_sample_period` is in
nanoseconds. Simplification: tables have one column, which is one of the columns of the device.
-/
namespace Nilmtk

/-- The sections asked for, elecmeter.py:676-682. -/
def askedSections {α : Type} (rows : List (Row α)) (window : TF) (sections : Option (List TF)) : Except Err (List TF) :=
  match sections with
  | some l => .ok l
  | none =>
    match tableTimeframe rows window with
    | .error e => .error e
    | .ok tf => .ok [{ tf with includeEnd := true }]

/-- `ElecMeter.good_sections`, elecmeter.py:618-634: ten rows of look-ahead. -/
def meterGoodSections (t : Option (RawTable (Option Rat))) (msp : Int) (window : TF) (sections : Option (List TF))
    (cs : Int) : Except Err (List TF) :=
  match t with
  | none => .error .keyError
  | some t =>
    match askedSections t.rows window sections with
    | .error e => .error e
    | .ok l => (gsCall msp [] ⟨l, false, gsCompute msp (fun ss => (hdfLoad (some t.rows) window (some ss) 10 cs).1)⟩).2

/-- `Electric.uptime`, electric.py:226-234. -/
def meterUptime (t : Option (RawTable (Option Rat))) (msp : Int) (window : TF) (sections : Option (List TF)) (cs : Int) :
    Except Err Int :=
  match meterGoodSections t msp window sections cs with
  | .error e => .error e
  | .ok fs => uptime fs

/-- `proportion_uptime` of `MeterGroup.describe`, metergroup.py:1711-1724, for a group whose only meter is its mains: the
uptime over the duration of the time frame; `NaN` (`none`) instead of a division by zero. -/
def proportionUptime (t : Option (RawTable (Option Rat))) (msp : Int) (window : TF) (cs : Int) : Except Err (Option Rat) :=
  match t with
  | none => .error .keyError
  | some t =>
    match tableTimeframe t.rows window with
    | .error e => .error e
    | .ok tf =>
      match meterUptime (some t) msp window none cs with
      | .error e => .error e
      | .ok up =>
        match tf.timedelta with
        | none => .error .attributeError
        | some d => .ok (if d = 0 then none else some ((up : Rat) / (d : Rat)))

end Nilmtk
