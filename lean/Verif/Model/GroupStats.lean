import Verif.Model.Proportion
import Verif.Model.Dropout
import Verif.Model.Experiment
/-!
Model of statistics collected over the meters of a group: `MeterGroup.energy_per_meter`,
`_energy_per_meter_with_remainder`, `_collect_stats_on_all_meters`, `dropout_rate`,
`_check_kwargs_for_full_results_and_sections`, `good_sections`, `available_ac_types`,
`available_physical_quantities` and `proportion_of_upstream_total_per_meter` (metergroup.py), and `most_common`
(utils.py).

What a single meter answers is an input here. Not modelled: labels instead of identifiers, printing and warnings, and what
pandas makes of a row or column label that is a tuple.
-/
namespace Nilmtk

/-- `_check_kwargs_for_full_results_and_sections`, metergroup.py:919-928, for `n` meters. -/
def checkFullResults (full sectionsGiven : Bool) (n : Nat) : Except Err Unit :=
  if full && !sectionsGiven && decide (1 < n) then .error .runtimeError else .ok ()

/-- `_collect_stats_on_all_meters`, metergroup.py:875-889: `f` is the statistic asked of a meter. -/
def collectStats {α β : Type} (f : α → Except Err β) (ms : List α) : Except Err (List β) := mapE f ms

/-- A member of a group, by what it answers: `total_energy()` (`none` is the `None` of a group without meters) and
`average_energy_per_period(offset_alias)` (`none` is a single NaN). -/
structure EMeter where
  id : Ident
  total : Except Err (Option EnergySeries)
  average : Int → Except Err (Option (List (String × FVal Rat)))

/-- A float, NaN is `none`. -/
def FVal.ofOption : Option Rat → FVal Rat
  | some x => .num x
  | none => .nan

/-- A column of the frame with the rows `AC_TYPES` set to a `pd.Series`, aligned on the AC types, or to `None` or NaN. -/
def energyColumn : Option (List (String × FVal Rat)) → List (FVal Rat)
  | none => acTypeNames.map (fun _ => .nan)
  | some s => acTypeNames.map (fun k => (s.lookup k).getD .nan)

/-- `meter_energy`, metergroup.py:1161-1166. -/
def meterEnergy (period : Option Int) (m : EMeter) : Except Err (List (FVal Rat)) :=
  match period with
  | none =>
    match m.total with
    | .error e => .error e
    | .ok s => .ok (energyColumn (s.map (fun s => s.map (fun p => (p.1, FVal.ofOption p.2)))))
  | some p =>
    match m.average p with
    | .error e => .error e
    | .ok s => .ok (energyColumn s)

/-- A `DataFrame` with rows `AC_TYPES`: its columns. -/
abbrev EnergyTable := List (Ident × List (FVal Rat))

/-- `table[identifier] = value`: every column, or row, of that name. -/
def setNamed {β : Type} (t : List (Ident × β)) (id : Ident) (v : β) : List (Ident × β) :=
  t.map (fun c => if Ident.beq c.1 id then (c.1, v) else c)

/-- `for meter in meters: table[meter.identifier] = f(meter)`, the loops of metergroup.py:1158-1167 and 1221-1226. -/
def fillLoop {α β : Type} (key : α → Ident) (f : α → Except Err β) :
    List (Ident × β) → List α → Except Err (List (Ident × β))
  | t, [] => .ok t
  | t, m :: ms =>
    match f m with
    | .error e => .error e
    | .ok v => fillLoop key f (setNamed t (key m) v) ms

/-- `most_common`, utils.py:360-367: `pd.Series` has no method `sort` (pandas 2, pyproject.toml:37). -/
def mostCommon (_ : List Ident) : Except Err Ident := .error .attributeError

/-- `_energy_per_meter_with_remainder`, metergroup.py:1180-1188, up to the call of `most_common`, which raises. -/
def energyWithRemainder (t : EnergyTable) : Except Err EnergyTable :=
  match mostCommon (t.map Prod.fst) with
  | .error e => .error e
  | .ok _ => .ok t

/-- `energy_per_meter`, metergroup.py:1154-1178. The frame without the rows of NaNs (line 1169) is not used. -/
def energyPerMeter (period : Option Int) (mains : Bool) (ms : List EMeter) : Except Err EnergyTable :=
  match fillLoop EMeter.id (meterEnergy period) (ms.map (fun m => (m.id, acTypeNames.map (fun _ => .nan)))) ms with
  | .error e => .error e
  | .ok t => if mains then energyWithRemainder t else .ok t

/-- A member of a group, by what `dropout_rate()` answers without and with `full_results`. -/
structure DMeter where
  rate : Except Err (Option Rat)
  results : Except Err (List (RRow DRow))

/-- What `dropout_rate` returns: a number or a `DropoutRateResults`. -/
inductive DropoutAnswer where
  | rate (r : Option Rat)
  | results (rows : List (RRow DRow))
  deriving DecidableEq

/-- `np.mean(l)`: NaN for an empty list and when an element is. -/
def npMean (l : List (Option Rat)) : Option Rat :=
  if l = [] then none
  else (l.foldl nanAdd (some 0)).map (· / l.length)

/-- `MeterGroup.dropout_rate`, metergroup.py:905-917. -/
def groupDropoutRate (full sectionsGiven : Bool) (ms : List DMeter) : Except Err DropoutAnswer :=
  match checkFullResults full sectionsGiven ms.length with
  | .error e => .error e
  | .ok () =>
    if full then
      match collectStats DMeter.results ms with
      | .error e => .error e
      | .ok [] => .ok (.rate (npMean []))
      | .ok (r :: rs) =>
        match dropoutUnifyAll r rs with
        | .error e => .error e
        | .ok u => .ok (.results u)
    else
      match collectStats DMeter.rate ms with
      | .error e => .error e
      | .ok rs => .ok (.rate (npMean rs))

/-- `MeterGroup.good_sections`, metergroup.py:930-943, given what the meters answer. -/
def groupGoodSections : List (Except Err (List TF)) → Except Err (List TF)
  | [] => .ok []
  | g :: _ => g

/-- `MeterGroup.available_ac_types`, metergroup.py:1099-1113, given the measurements of the meters. The order of
`list(set(...))` is arbitrary. -/
def groupAcTypes (q : String) (ms : List (List Measurement)) : Except Err (List String) :=
  match mapE (fun m => availableAcTypes m q) ms with
  | .error e => .error e
  | .ok ls => .ok ls.flatten.dedup

/-- `ElecMeter.available_ac_types` with a list of physical quantities, elecmeter.py:256-258. -/
def availableAcTypesMany (qs : List String) (m : List Measurement) : Except Err (List String) :=
  match mapE (fun q => availableAcTypes m q) qs with
  | .error e => .error e
  | .ok ls => .ok ls.flatten.dedup

/-- `MeterGroup.available_ac_types` with a list of physical quantities, metergroup.py:1111-1113. -/
def groupAcTypesMany (qs : List String) (ms : List (List Measurement)) : Except Err (List String) :=
  match mapE (availableAcTypesMany qs) ms with
  | .error e => .error e
  | .ok ls => .ok ls.flatten.dedup

/-- `MeterGroup.available_physical_quantities`, metergroup.py:1115-1123. -/
def groupPhysicalQuantities (ms : List (List Measurement)) : List String :=
  (ms.map availablePhysicalQuantities).flatten.dedup

/-- Whether `a` may stand before `b` after `sort_values(ascending=False)`: larger values first, NaN last. -/
def sortsBefore : FVal Rat → FVal Rat → Bool
  | _, .nan => true
  | .nan, _ => false
  | .posInf, _ => true
  | _, .posInf => false
  | _, .negInf => true
  | .negInf, _ => false
  | .num x, .num y => decide (y ≤ x)

/-- `series.sort_values(ascending=False)`. pandas does not fix the order of equal values; here it is kept. -/
def sortDescending (s : List (Ident × FVal Rat)) : List (Ident × FVal Rat) :=
  s.insertionSort (fun a b => sortsBefore a.2 b.2 = true)

/-- `proportion_of_upstream_total_per_meter`, metergroup.py:1218-1228; every meter comes with what `proportion_of_upstream`
answers. -/
def proportionPerMeter (ms : List (Ident × Except Err (FVal Rat))) : Except Err (List (Ident × FVal Rat)) :=
  match fillLoop Prod.fst Prod.snd (ms.map (fun m => (m.1, .nan))) ms with
  | .error e => .error e
  | .ok s => .ok (sortDescending s)

end Nilmtk
