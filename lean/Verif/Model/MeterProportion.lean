import Verif.Model.Experiment
import Verif.Model.MeterAverage
/-!
Model of `Electric.proportion_of_energy` and `MeterGroup.proportion_of_energy_submetered` for meters in HDF stores from the tables
to the result: `nilmtk/electric.py:267-309`, `nilmtk/metergroup.py:842-889`, `930-943`, `1073-1097`.

As in `Model/MeterEnergy.lean` and `Model/MeterUptime.lean`, nothing is in the cache, tables have one column, and no `sections`,
`ac_type`, `physical_quantity` or `preprocessing` is given. Which meters are mains and which are directly downstream of them are
inputs (see `Model/Wiring.lean`). Arithmetic is exact.
-/
namespace Nilmtk

/-- A meter: its table (`none` if there is none), the measurements and `max_sample_period` (in nanoseconds) of its device. -/
structure StoredMeter where
  table : Option (RawTable (Option Rat))
  measurements : List Measurement
  maxSamplePeriod : Int

/-- `ElecMeter.total_energy(sections=...)`, elecmeter.py:581-595. -/
def StoredMeter.energyIn (m : StoredMeter) (window : TF) (sections : List TF) (cs : Int) : Except Err EnergySeries :=
  match meterTotalEnergy m.table m.measurements ((m.maxSamplePeriod : Rat) / 1000000000) window (some sections) cs with
  | .error e => .error e
  | .ok energy => .ok (energySeriesOf energy)

/-- `MeterGroup.good_sections`, metergroup.py:930-943: those of the first meter. -/
def firstGoodSections (ms : List StoredMeter) (window : TF) (cs : Int) : Except Err (List TF) :=
  match ms with
  | [] => .ok []
  | m :: _ => meterGoodSections m.table m.maxSamplePeriod window none cs

/-- `MeterGroup.total_energy(sections=...)`, metergroup.py:860-889; `none` for a group without meters. -/
def groupEnergyIn (ms : List StoredMeter) (window : TF) (sections : List TF) (cs : Int) : Except Err (Option EnergySeries) :=
  match mapE (fun m => StoredMeter.energyIn m window sections cs) ms with
  | .error e => .error e
  | .ok l => .ok (groupEnergy l)

/-- `meter.proportion_of_energy(other)`, electric.py:282-309, for a group `other` (or a single meter). -/
def storedProportion (self : StoredMeter) (other : List StoredMeter) (window : TF) (cs : Int) : Except Err (FVal Rat) :=
  match firstGoodSections other window cs with
  | .error e => .error e
  | .ok sections =>
    match groupEnergyIn other window sections cs with
    | .error e => .error e
    | .ok none => .error .attributeError
    | .ok (some otherEnergy) =>
      if energySum otherEnergy = 0 then .ok .nan
      else
        match self.energyIn window sections cs with
        | .error e => .error e
        | .ok energy => proportionOfEnergy energy otherEnergy

/-- The loop of `proportion_of_energy_submetered`, metergroup.py:1082-1097. -/
def storedSubmeteredLoop (mains : List StoredMeter) (window : TF) (cs : Int) :
    FVal Rat → Bool → List StoredMeter → Except Err (FVal Rat)
  | acc, allNan, [] => .ok (if allNan then .nan else acc)
  | acc, allNan, m :: ms =>
    match storedProportion m mains window cs with
    | .error e => .error e
    | .ok .nan => storedSubmeteredLoop mains window cs acc allNan ms
    | .ok v => storedSubmeteredLoop mains window cs (acc.add v) false ms

/-- `MeterGroup.proportion_of_energy_submetered`, metergroup.py:1073-1097. -/
def storedSubmetered (mains downstream : List StoredMeter) (window : TF) (cs : Int) : Except Err (FVal Rat) :=
  storedSubmeteredLoop mains window cs (.num 0) true downstream

end Nilmtk
