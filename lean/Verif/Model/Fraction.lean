import Verif.Model.Py
import Mathlib.Algebra.Order.Ring.Rat
/-!
Model of `MeterGroup.fraction_per_meter`, `nilmtk/metergroup.py:1208-1216`, and of
`fraction_energy_assigned_correctly`, `nilmtk/metrics.py:75-114`.
-/
namespace Nilmtk

/-- The energies of a meter, one for each AC type (`none` is NaN): a column of `energy_per_meter`,
metergroup.py:1156-1167. -/
abbrev Energies := List (Option Rat)

/-- `.max()` of a column: the largest value, NaN ignored; NaN if there is none. -/
def maxSkipNan (es : Energies) : Option Rat := (es.filterMap id).max?

/-- `a / b` of floats. Simplification: energies are not negative, so a total of 0 means 0 / 0, NaN. -/
def divTotal (total : Rat) : Option Rat → Option Rat
  | none => none
  | some a => if total = 0 then none else some (a / total)

/-- `fraction_per_meter`, metergroup.py:1214-1216, with the meters' instances as index (metrics.py:106-107).
Simplification: the index of identifiers can be mapped to instances (an index of plain tuples could not). -/
def fractionPerMeter (ms : List (Int × Energies)) : List (Int × Option Rat) :=
  let best := ms.map (fun m => (m.1, maxSkipNan m.2))
  let total := (best.filterMap Prod.snd).sum
  best.map (fun m => (m.1, divTotal total m.2))

/-- `series[instance]`: `KeyError` if it is not in the index. Simplification: instances are not repeated. -/
def seriesGet (s : List (Int × Option Rat)) (i : Int) : Except Err (Option Rat) :=
  match s.find? (fun r => r.1 == i) with
  | none => .error .keyError
  | some r => .ok r.2

/-- Python's `min(a, b)`: the second value if it is smaller, otherwise the first. Comparisons with NaN are false. -/
def pyMin (a b : Option Rat) : Option Rat :=
  match a, b with
  | some x, some y => if y < x then some y else some x
  | a, _ => a

/-- The loop at metrics.py:110-113; `acc` is `fraction`. -/
def assignedLoop (truth pred : List (Int × Option Rat)) : Option Rat → List Int → Except Err (Option Rat)
  | acc, [] => .ok acc
  | acc, i :: is =>
    match seriesGet truth i with
    | .error e => .error e
    | .ok g =>
      match seriesGet pred i with
      | .error e => .error e
      | .ok p =>
        assignedLoop truth pred (match acc, pyMin g p with | some a, some m => some (a + m) | _, _ => none) is

/-- `fraction_energy_assigned_correctly`, metrics.py:98-114, given the submeters of both groups. -/
def fractionAssigned (pred truth : List (Int × Energies)) : Except Err (Option Rat) :=
  assignedLoop (fractionPerMeter truth) (fractionPerMeter pred) (some 0) (pred.map Prod.fst)

end Nilmtk
