import Verif.Model.Describe
import Verif.Model.Fraction
import Verif.Model.FromList
/-!
Model of `ElecMeter.total_energy(ac_type='best')`, `MeterGroup.energy_per_meter`, `fraction_per_meter` and `select_top_k(by='energy')` for
meters in HDF stores from the tables to the result: `nilmtk/elecmeter.py:514-563`, `581-595`, `636-744`,
`nilmtk/metergroup.py:1125-1178`, `1208-1216`, `1334-1353`.

As in `Model/MeterProportion.lean`, nothing is in the cache, tables have one column, and no `sections`, `physical_quantity` or
`preprocessing` is given. All meters are `ElecMeter`s, known by their instances. Arithmetic is exact.
-/
namespace Nilmtk

/-- `ac_types`, elecmeter.py:670. -/
def typesOf (columns : List Col) : List AC := (((columns.map Prod.snd).filter (fun t => t ≠ "")).dedup).map acNamed

/-- What is picked from the results, elecmeter.py:732-744. -/
def pickBest (types : List AC) (res : List (AC × Rat)) : Except Err (List (AC × Rat)) :=
  if types = [] then .ok res
  else if res = [] then .ok []
  else pickTypes res types

/-- `ElecMeter.total_energy(ac_type='best')`, elecmeter.py:581-595, 665-670: only the best columns are read. -/
def StoredMeter.energyBest (m : StoredMeter) (window : TF) (cs : Int) : Except Err EnergySeries :=
  match convertToCols m.measurements .none (.one "best") none with
  | .error e => .error e
  | .ok columns =>
    match meterTotalEnergy (m.table.map (fun t => { t with columns := t.columns.filter (fun c => c ∈ columns) })) m.measurements
        ((m.maxSamplePeriod : Rat) / 1000000000) window none cs with
    | .error e => .error e
    | .ok res =>
      match pickBest (typesOf columns) res with
      | .error e => .error e
      | .ok energy => .ok (energySeriesOf energy)

/-- A column of `energy_per_meter()`, metergroup.py:1158-1167: the rows are the AC types. -/
def bestColumn (p : Int × StoredMeter) (window : TF) (cs : Int) : Except Err (Int × Energies) :=
  match p.2.energyBest window cs with
  | .error e => .error e
  | .ok s => .ok (p.1, acTypeNames.map (fun k => (s.lookup k).getD none))

/-- `fraction_per_meter()`, metergroup.py:1208-1216. -/
def storedFractions (ms : List (Int × StoredMeter)) (window : TF) (cs : Int) : Except Err (List (Int × Option Rat)) :=
  match mapE (fun p => bestColumn p window cs) ms with
  | .error e => .error e
  | .ok columns => .ok (fractionPerMeter columns)

/-- `select_top_k(k, by='energy', asc=asc)`, metergroup.py:1334-1353: the instances selected and the remainder. `sort asc` is
`sort_values(ascending=asc)`. How meters are found by identifier is in `Model/FromList.lean`. -/
def storedTopK (sort : Bool → List (Int × Option Rat) → List (Int × Option Rat)) (ms : List (Int × StoredMeter)) (k : Int) (asc : Bool)
    (window : TF) (cs : Int) : Except Err (List Int × List Int) :=
  match storedFractions ms window cs with
  | .error e => .error e
  | .ok fractions => .ok ((pyTake k (sort asc fractions)).map Prod.fst, (pyDrop k (sort asc fractions)).map Prod.fst)

end Nilmtk
