import Verif.Model.DataSet
import Verif.Model.Group
import Verif.Model.Metrics
import Verif.Model.Proportion
/-!
Model of the functions of nilmtk/metrics.py that give a table with one value for each meter: `error_in_assigned_energy`,
`mean_normalized_error_power`, `rms_error_power`, `f1_score`. The pairs of meters are those of `Model/Group`, the values for one pair of
aligned meters those of `Model/Metrics`.

`inst` is `meter.instance()`. The good sections and energies of meters and the aligned chunks are inputs, see `Model/GoodSections`,
`Model/Energy`, `Model/Metrics`. Nested groups have meters, so that their energy is not `None`.
-/
namespace Nilmtk

/-- The loop `for pred_meter, ground_truth_meter in both_sets_of_meters` that fills a dictionary, metrics.py:67-71, 138-151, 172-185,
215-248. -/
def meterMetricLoop {κ ν : Type} [DecidableEq κ] (inst : Meter → κ) (metric : Meter → Meter → Except Err ν) :
    List (κ × ν) → List (Meter × Meter) → Except Err (List (κ × ν))
  | d, [] => .ok d
  | d, (p, g) :: ps =>
    match metric p g with
    | .error e => .error e
    | .ok v => meterMetricLoop inst metric (orderedSet d (inst p) v) ps

/-- A metric for all submeters of the predictions, metrics.py:64-72, 135-151, 169-187, 210-250; `none`: a key that is not modelled. -/
def meterMetrics {κ ν : Type} [DecidableEq κ] (inst : Meter → κ) (metric : Meter → Meter → Except Err ν) (pred truth : List Meter)
    (dataset : String) : Option (Except Err (List (κ × ν))) :=
  match pairSubmeters pred truth dataset with
  | none => none
  | some (.error e) => some (.error e)
  | some (.ok ps) => some (meterMetricLoop inst metric [] ps)

/-- The index of `a - b`: that of `a` if `b` has the same, otherwise the sorted union. -/
def subIndex (a b : EnergySeries) : List String :=
  if a.map Prod.fst = b.map Prod.fst then a.map Prod.fst
  else ((a.map Prod.fst ++ b.map Prod.fst).dedup).insertionSort (· ≤ ·)

/-- `abs(x - y)` of two floats. -/
def absDiff : Option Rat → Option Rat → Option Rat
  | some x, some y => some |x - y|
  | _, _ => none

/-- `np.abs(ground_truth_energy - predicted_energy)`, metrics.py:71, of two `pd.Series` over AC types. -/
def absSub (a b : EnergySeries) : EnergySeries :=
  (subIndex a b).map (fun k => (k, absDiff ((a.lookup k).getD none) ((b.lookup k).getD none)))

/-- One round of the loop of `error_in_assigned_energy`, metrics.py:68-71. -/
def assignedError {σ : Type} (sections : Meter → Except Err σ) (energy : Meter → σ → Except Err EnergySeries) (pred truth : Meter) :
    Except Err EnergySeries :=
  match sections pred with
  | .error e => .error e
  | .ok s =>
    match energy truth s with
    | .error e => .error e
    | .ok t =>
      match energy pred s with
      | .error e => .error e
      | .ok p => .ok (absSub t p)

/-- `error_in_assigned_energy`, metrics.py:46-72. -/
def errorInAssignedEnergy {κ σ : Type} [DecidableEq κ] (inst : Meter → κ) (sections : Meter → Except Err σ)
    (energy : Meter → σ → Except Err EnergySeries) (pred truth : List Meter) (dataset : String) :
    Option (Except Err (List (κ × EnergySeries))) :=
  meterMetrics inst (assignedError sections energy) pred truth dataset

/-- The value for the chunks of one pair: an error of the generator of chunks comes first. -/
def ofAligned {ν : Type} (value : List AChunk → Except Err ν) (chunks : Gen AChunk) : Except Err ν :=
  match chunks.err with
  | some e => .error e
  | none => value chunks.out

/-- `mean_normalized_error_power`, metrics.py:115-151; `aligned p g` is `align_two_meters(p, g)`. -/
def mnePower {κ : Type} [DecidableEq κ] (inst : Meter → κ) (aligned : Meter → Meter → Gen AChunk) (pred truth : List Meter)
    (dataset : String) : Option (Except Err (List (κ × FloatVal))) :=
  meterMetrics inst (fun p g => ofAligned mneForMeter (aligned p g)) pred truth dataset

/-- `rms_error_power`, metrics.py:154-187. -/
noncomputable def rmsPower {κ : Type} [DecidableEq κ] (inst : Meter → κ) (aligned : Meter → Meter → Gen AChunk) (pred truth : List Meter)
    (dataset : String) : Option (Except Err (List (κ × Option Real))) :=
  meterMetrics inst (fun p g => ofAligned rmsForMeter (aligned p g)) pred truth dataset

/-- `f1_score`, metrics.py:190-250; `aligned p g` is `align_two_meters(p, g, 'when_on')`. -/
def f1Table {κ : Type} [DecidableEq κ] (inst : Meter → κ) (aligned : Meter → Meter → Gen AChunk) (pred truth : List Meter)
    (dataset : String) : Option (Except Err (List (κ × Option Rat))) :=
  meterMetrics inst (fun p g => ofAligned (fun cs => .ok (f1ForMeter cs)) (aligned p g)) pred truth dataset

end Nilmtk
