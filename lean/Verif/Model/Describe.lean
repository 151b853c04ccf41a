import Verif.Model.MeterProportion
import Verif.Model.GroupLoad
/-!
Model of `MeterGroup.total_energy`, `uptime`, `average_energy_per_period` and `describe(compute_expensive_stats=False)` for meters in
HDF stores from the tables to the result: `nilmtk/metergroup.py:842-889`, `930-943`, `1375-1390`, `1688-1726`,
`nilmtk/electric.py:226-265`.

As in `Model/MeterProportion.lean`, nothing is in the cache, tables have one column, and no `sections`, `ac_type`, `physical_quantity`
or `preprocessing` is given. All meters are `ElecMeter`s of one building. Times are in nanoseconds, sample periods in seconds.
Arithmetic is exact.
-/
namespace Nilmtk

/-- `ElecMeter.total_energy()`, elecmeter.py:581-595. -/
def StoredMeter.energy (m : StoredMeter) (window : TF) (cs : Int) : Except Err EnergySeries :=
  match meterTotalEnergy m.table m.measurements ((m.maxSamplePeriod : Rat) / 1000000000) window none cs with
  | .error e => .error e
  | .ok energy => .ok (energySeriesOf energy)

/-- `ElecMeter.get_timeframe`, elecmeter.py:92-94. -/
def StoredMeter.frame (m : StoredMeter) (window : TF) : Except Err TF :=
  match m.table with
  | none => .error .keyError
  | some t => tableTimeframe t.rows window

/-- `MeterGroup.total_energy`, metergroup.py:860-889; `none` for a group without meters. -/
def storedGroupEnergy (ms : List StoredMeter) (window : TF) (cs : Int) : Except Err (Option EnergySeries) :=
  match mapE (fun m => StoredMeter.energy m window cs) ms with
  | .error e => .error e
  | .ok l => .ok (groupEnergy l)

/-- `uptime` of a group, electric.py:232-233 and metergroup.py:930-943: of the first meter; without meters the good sections are a
list, which has no `uptime`. -/
def storedGroupUptime (ms : List StoredMeter) (window : TF) (cs : Int) : Except Err Int :=
  match ms with
  | [] => .error .attributeError
  | m :: _ => meterUptime m.table m.maxSamplePeriod window none cs

/-- `get_timeframe` of a group, metergroup.py:1375-1390; `none` without meters. -/
def storedGroupFrame (ms : List StoredMeter) (window : TF) : Except Err (Option TF) :=
  unionFrames none (ms.map (fun m => StoredMeter.frame m window))

/-- `td`, electric.py:257-260. A duration of `None` is as false as one of zero (electric.py:261). -/
def storedGroupTime (ms : List StoredMeter) (window : TF) (useUptime : Bool) (cs : Int) : Except Err Int :=
  if useUptime then storedGroupUptime ms window cs
  else
    match storedGroupFrame ms window with
    | .error e => .error e
    | .ok none => .error .attributeError
    | .ok (some tf) => .ok (tf.timedelta.getD 0)

/-- `average_energy_per_period` of a group, electric.py:236-265; `none` is a single NaN. -/
def storedGroupAverage (ms : List StoredMeter) (window : TF) (sectionsGiven useUptime : Bool) (period cs : Int) :
    Except Err (Option (List (String × FVal Rat))) :=
  if sectionsGiven then averageEnergy true 0 period []
  else
    match storedGroupTime ms window useUptime cs with
    | .error e => .error e
    | .ok td =>
      if td = 0 then averageEnergy false td period []
      else
        match storedGroupEnergy ms window cs with
        | .error e => .error e
        | .ok none => .error .typeError
        | .ok (some energy) => averageEnergy false td period energy

/-- A meter of a home: whether it is a site meter, and `sample_period` of its device. -/
structure HomeMeter where
  stored : StoredMeter
  site : Bool
  samplePeriod : Rat

/-- `sample_period`, metergroup.py:574-576: `max` of an empty list raises `ValueError`. -/
def homePeriod : List HomeMeter → Except Err Rat
  | [] => .error .valueError
  | m :: ms => .ok (ms.foldl (fun p x => max p x.samplePeriod) m.samplePeriod)

/-- The entries of the `pd.Series` of `describe(compute_expensive_stats=False)`, metergroup.py:1690-1726. The average is what
`average_energy_per_period` returns. -/
structure HomeDescription where
  totalMeters : Nat
  siteMeters : Nat
  mainsSamplePeriod : Rat
  submeterSamplePeriod : Rat
  start : Option Int
  stop : Option Int
  duration : Option Int
  mainsUptime : Int
  proportionUptime : Option Rat
  averagePerDay : Option (List (String × FVal Rat))
  deriving DecidableEq

/-- `proportion_uptime`, metergroup.py:1718-1722: NaN (`none`) instead of a division by zero; `None` has no `total_seconds`. -/
def uptimeShare (up : Int) (duration : Option Int) : Except Err (Option Rat) :=
  match duration with
  | none => .error .attributeError
  | some d => .ok (if d = 0 then none else some ((up : Rat) / (d : Rat)))

/-- `MeterGroup.describe(compute_expensive_stats=False)`, metergroup.py:1688-1726. `mains()` is `None`, a meter or a group
(metergroup.py:777-796); what is asked of it is the same for a meter and for a group of this meter. -/
def describeHome (meters disabled : List HomeMeter) (window : TF) (cs : Int) : Except Err HomeDescription :=
  match meters.filter (fun m => m.site) with
  | [] => .error .attributeError
  | m :: rest =>
    match homePeriod (m :: rest) with
    | .error e => .error e
    | .ok mainsPeriod =>
      match homePeriod (meters.filter (fun m => !m.site)) with
      | .error e => .error e
      | .ok subPeriod =>
        match storedGroupFrame (meters.map HomeMeter.stored) window with
        | .error e => .error e
        | .ok none => .error .attributeError
        | .ok (some tf) =>
          match storedGroupUptime ((m :: rest).map HomeMeter.stored) window cs with
          | .error e => .error e
          | .ok up =>
            match uptimeShare up tf.timedelta with
            | .error e => .error e
            | .ok share =>
              match storedGroupAverage ((m :: rest).map HomeMeter.stored) window false true dayNs cs with
              | .error e => .error e
              | .ok average =>
                .ok ⟨(meters ++ disabled).length, ((meters ++ disabled).filter (fun m => m.site)).length, mainsPeriod, subPeriod,
                  tf.start, tf.stop, tf.timedelta, up, share, average⟩

end Nilmtk
