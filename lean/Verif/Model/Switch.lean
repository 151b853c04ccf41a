import Verif.Model.Correlation
import Verif.Model.Group
/-!
Model of `Electric.switch_times` (`nilmtk/electric.py:479-497`) and `MeterGroup.simultaneous_switches`
(`nilmtk/metergroup.py:748-774`).

A meter is given by the chunks that `power_series` yields, each a list of timestamps and readings (`none` is NaN).
Simplification: floats are rational numbers.
-/
namespace Nilmtk

/-- `power.diff()`, electric.py:493: the difference from the reading before, NaN for the first reading and when either of the
two is NaN. `prev` is the reading before. -/
def diffPrev (prev : Option Rat) : CorChunk → CorChunk
  | [] => []
  | (t, v) :: rest =>
    (t, match prev, v with
        | some x, some y => some (y - x)
        | _, _ => none) :: diffPrev v rest

/-- `delta_power.abs()`, electric.py:494. -/
def absSeries (c : CorChunk) : CorChunk := c.map (fun p => (p.1, p.2.map (fun x => |x|)))

/-- `delta_power_absolute > threshold` for one value: a comparison with NaN is false. -/
def overThreshold (threshold : Rat) : Option Rat → Bool
  | some x => decide (threshold < x)
  | none => false

/-- `delta_power_absolute[(delta_power_absolute>threshold)].index.values.tolist()`, electric.py:493-495. -/
def switchesInChunk (threshold : Rat) (c : CorChunk) : List Int :=
  ((absSeries (diffPrev none c)).filter (fun p => overThreshold threshold p.2)).map Prod.fst

/-- `switch_times`, electric.py:479-497; `flatten_2d_list` (utils.py:156-168) joins lists of timestamps. -/
def switchTimes (threshold : Rat) (cs : List CorChunk) : List Int := (cs.map (switchesInChunk threshold)).flatten

/-- `count[timestamp] += 1` on a `Counter`, metergroup.py:771. -/
def counterAdd (t : Int) : List (Int × Nat) → List (Int × Nat)
  | [] => [(t, 1)]
  | (s, n) :: rest => if s = t then (s, n + 1) :: rest else (s, n) :: counterAdd t rest

/-- The loops of `simultaneous_switches`, metergroup.py:767-771. -/
def countSwitches (threshold : Rat) (chunks : Meter → List CorChunk) (ms : List Meter) : List (Int × Nat) :=
  ms.foldl (fun count m => (switchTimes threshold (chunks m)).foldl (fun c t => counterAdd t c) count) []

/-- `simultaneous_switches`, metergroup.py:748-774. -/
def simultaneousSwitches (threshold : Rat) (chunks : Meter → List CorChunk) (ms : List Meter) : List (Int × Nat) :=
  (countSwitches threshold chunks (submeters ms)).filter (fun p => decide (2 ≤ p.2))

end Nilmtk
