import Verif.Model.MeterUptime
import Verif.Model.Proportion
/-!
Model of `Electric.average_energy_per_period` of a meter in an HDF store from the table to the result:
`nilmtk/electric.py:236-265`, with `nilmtk/elecmeter.py:581-744` and `nilmtk/electric.py:226-234`.

As in `Model/MeterEnergy.lean` and `Model/MeterUptime.lean`, nothing is in the cache, tables have one column, and no `ac_type`,
`physical_quantity` or `preprocessing` is given. `max_sample_period` and the length of the period
(`offset_alias_to_seconds`, utils.py:250-253) are in nanoseconds. Arithmetic is exact.
-/
namespace Nilmtk

/-- The name of an AC type. -/
def acString : AC → String
  | .active => "active"
  | .apparent => "apparent"
  | .reactive => "reactive"
  | .other _ => ""

/-- The `pd.Series` of `total_energy`, totalenergyresults.py:38-39 (`simple`). -/
def energySeriesOf (l : List (AC × Rat)) : EnergySeries := l.map (fun p => (acString p.1, some p.2))

/-- `td`, electric.py:257-260: the uptime, or the duration of the time frame. A duration of `None` is as false as one of zero
(electric.py:261). -/
def averageTime (t : Option (RawTable (Option Rat))) (msp : Int) (window : TF) (useUptime : Bool) (cs : Int) : Except Err Int :=
  if useUptime then meterUptime t msp window none cs
  else
    match t with
    | none => .error .keyError
    | some t =>
      match tableTimeframe t.rows window with
      | .error e => .error e
      | .ok tf => .ok (tf.timedelta.getD 0)

/-- `Electric.average_energy_per_period`, electric.py:236-265; `none` is a single NaN. -/
def meterAverage (t : Option (RawTable (Option Rat))) (ms : List Measurement) (msp : Int) (window : TF)
    (sectionsGiven useUptime : Bool) (period cs : Int) : Except Err (Option (List (String × FVal Rat))) :=
  if sectionsGiven then averageEnergy true 0 period []
  else
    match averageTime t msp window useUptime cs with
    | .error e => .error e
    | .ok td =>
      if td = 0 then averageEnergy false td period []
      else
        match meterTotalEnergy t ms ((msp : Rat) / 1000000000) window none cs with
        | .error e => .error e
        | .ok energy => averageEnergy false td period (energySeriesOf energy)

end Nilmtk
