import Verif.Model.MeterPower
import Verif.Model.Histogram
/-!
Model of `Electric.vampire_power` of a meter in an HDF store, with `get_vampire_power`: `nilmtk/electric.py:221-224`, `984-991`.
The simplifications are those of `Model/MeterPower.lean`.
-/
namespace Nilmtk

/-- What `min()` gives: a number or NaN for a series, an empty series for a frame without columns. -/
inductive VampirePower where
  | noColumn
  | watts (v : Option Rat)
  deriving DecidableEq, Repr

/-- The reading of a row, if there is one. -/
def PowerCell.reading : PowerCell → Option Rat
  | .noColumn => none
  | .power v => v

/-- `get_vampire_power`, electric.py:984-991: `power_series.min()`. Whether there is a column is the same for all rows; there is at least one row. -/
def vampireOf (rows : List (Row PowerCell)) : VampirePower :=
  if rows.any (fun r => r.2 == .noColumn) then .noColumn else .watts (minOf (rows.filterMap (fun r => r.2.reading)))

/-- `Electric.vampire_power`, electric.py:221-224, of a meter. `None` has no `min`. -/
def meterVampirePower (t : Option (RawTable (List (Option Rat)))) (ms : List Measurement) (ac : Option Req) (window : TF)
    (sections : Option (List TF)) (cs : Int) : Except Err VampirePower :=
  match meterPowerAllData t ms ac window sections cs with
  | .error e => .error e
  | .ok none => .error .attributeError
  | .ok (some rows) => .ok (vampireOf rows)

end Nilmtk
