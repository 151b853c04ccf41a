import Verif.Model.Py
import Verif.Model.Metrics
/-!
Model of `get_activations`, `nilmtk/electric.py:899-981`.
-/
namespace Nilmtk

/-- `chunk >= on_power_threshold`, electric.py:926 (comparisons with NaN are false). -/
def whenOnAbove (threshold : Rat) (chunk : PSeries) : List Bool :=
  chunk.map (fun r => match r.2 with | none => false | some v => decide (threshold ≤ v))

/-- `when_on.astype(np.int8)`, electric.py:929. -/
def boolInt (b : Bool) : Int := if b then 1 else 0

/-- `.diff()` after the first value, see `stateChanges`. -/
def diffFrom : Bool → List Bool → List (Option Int)
  | _, [] => []
  | p, x :: xs => some (boolInt x - boolInt p) :: diffFrom x xs

/-- `when_on.astype(np.int8).diff()`, electric.py:929: the first value is NaN. -/
def stateChanges : List Bool → List (Option Int)
  | [] => []
  | x :: xs => none :: diffFrom x xs

/-- `np.where(state_changes == v)[0]`, electric.py:931-932. -/
def whereEq (v : Int) (xs : List (Option Int)) : List Nat :=
  (List.range xs.length).filter (fun i => decide (xs[i]? = some (some v)))

/-- `values[positions]` of a numpy array. Simplification: positions are in range (they are, the theorems do not depend on
what happens otherwise). -/
def takeAt (xs : List Nat) (is : List Nat) : List Nat := is.filterMap (fun i => xs[i]?)

/-- Drops a switch-off that comes before any switch-on and a switch-on that comes after any switch-off,
electric.py:935-946; `none` where the function returns `[]`. -/
def alignEvents (ons offs : List Nat) : Option (List Nat × List Nat) :=
  match ons, offs with
  | [], _ => none
  | _, [] => none
  | on :: ons', off :: offs' =>
    let offs1 := if off < on then offs' else off :: offs'
    if offs1 = [] then none
    else
      let ons1 := if offs1.getLastD 0 < (on :: ons').getLastD 0 then (on :: ons').dropLast else on :: ons'
      if ons1 = [] then none else some (ons1, offs1)

/-- `chunk.index[i]`. -/
def timeAt (chunk : PSeries) (i : Nat) : Int := ((chunk[i]?).map Prod.fst).getD 0

/-- Seconds in a duration of `ns` nanoseconds (`timedelta64_to_secs`, `total_seconds`). -/
def secsOf (ns : Int) : Rat := (ns : Rat) / 1000000000

/-- `above_threshold_off_durations`, electric.py:951-957. -/
def longGaps (chunk : PSeries) (minOff : Rat) (ons offs : List Nat) : List Nat :=
  let durations := List.zipWith (fun on off => secsOf (timeAt chunk on - timeAt chunk off)) ons.tail offs.dropLast
  (List.range durations.length).filter (fun i => decide (minOff ≤ durations.getD i 0))

/-- Smoothing over short off-durations, electric.py:950-964. -/
def smoothEvents (chunk : PSeries) (minOff : Rat) (ons offs : List Nat) : List Nat × List Nat :=
  if 0 < minOff then
    let gaps := longGaps chunk minOff ons offs
    (takeAt ons (0 :: gaps.map (· + 1)), takeAt offs (gaps ++ [offs.length - 1]))
  else (ons, offs)

/-- `chunk.iloc[on:off]` for positions that are not negative. -/
def ilocSlice (chunk : PSeries) (lo hi : Nat) : PSeries := (chunk.take hi).drop lo

/-- `activation.isnull().values.any()`, electric.py:978. -/
def anyNull (s : PSeries) : Bool := s.any (fun r => r.2.isNone)

/-- The loop at electric.py:967-981. -/
def activationLoop (chunk : PSeries) (minOn : Rat) (border : Nat) : List (Nat × Nat) → List PSeries
  | [] => []
  | (on, off) :: es =>
    if secsOf (timeAt chunk off - timeAt chunk on) < minOn then activationLoop chunk minOn border es
    else
      let lo : Int := (on : Int) - (1 + border)
      let lo := if lo < 0 then 0 else lo
      let activation := ilocSlice chunk lo.toNat (off + border)
      if anyNull activation then activationLoop chunk minOn border es
      else activation :: activationLoop chunk minOn border es

/-- `get_activations`, electric.py:899-981. Simplification: `border` is not negative. -/
def getActivations (chunk : PSeries) (minOff minOn : Rat) (border : Nat) (threshold : Rat) :
    Except Err (List PSeries) :=
  let changes := stateChanges (whenOnAbove threshold chunk)
  match alignEvents (whereEq 1 changes) (whereEq (-1) changes) with
  | none => .ok []
  | some (ons, offs) =>
    if ons.length ≠ offs.length then .error .assertionError
    else
      let (ons, offs) := smoothEvents chunk minOff ons offs
      if ons.length ≠ offs.length then .error .assertionError
      else .ok (activationLoop chunk minOn border (ons.zip offs))

end Nilmtk
