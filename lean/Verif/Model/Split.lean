import Verif.Model.Py
import Verif.Model.CO
import Verif.Model.Hart
/-!
Model of `MeterGroup.train_test_split`, `nilmtk/metergroup.py:1230-1275`.
-/
namespace Nilmtk

/-- A good section: start and end in nanoseconds. Simplification: both ends are set. -/
abbrev Section' := Int × Int

/-- `(ts.end - ts.start).total_seconds()`, metergroup.py:1251. -/
def totalSeconds (s : Section') : Rat := ((s.2 - s.1 : Int) : Rat) / 1000000000

/-- `appx_num_records_in_each_good_section`, metergroup.py:1250-1251 (`int` truncates). -/
def recordsOf (period : Rat) (ss : List Section') : List Int := ss.map (fun s => truncInt (totalSeconds s / period))

/-- `timedelta(seconds=x)`, in nanoseconds: rounded to whole microseconds, halves to even. -/
def timedeltaNs (x : Rat) : Int := roundEven (x * 1000000) * 1000

/-- One pass of the `for` loop, metergroup.py:1264-1275, from section `i` on: the split point (or `IndexError`), or what
is left of `records_remaining` after the last section. -/
def splitPass (ss : List Section') (period : Rat) : Nat → Rat → List Int → Except Rat (Except Err Int)
  | _, remaining, [] => .error remaining
  | i, remaining, r :: rs =>
    if (r : Rat) < remaining then splitPass ss period (i + 1) (remaining - r) rs
    else if remaining = r then
      .ok (match ss[i + 1]? with
        | none => .error .indexError
        | some s => .ok s.1)
    else
      .ok (match ss[i]? with
        | none => .error .indexError
        | some s => .ok (s.1 + timedeltaNs (period * remaining)))

/-- `while records_remaining:`, metergroup.py:1263-1275, at most `fuel` passes: `none` when that is not enough, otherwise
the value returned (`None` when the loop ends). -/
def splitWhile (ss : List Section') (period : Rat) (records : List Int) : Nat → Rat → Option (Except Err (Option Int))
  | 0, remaining => if remaining = 0 then some (.ok none) else none
  | fuel + 1, remaining =>
    if remaining = 0 then some (.ok none)
    else
      match splitPass ss period 0 remaining records with
      | .ok (.ok t) => some (.ok (some t))
      | .ok (.error e) => some (.error e)
      | .error remaining' => splitWhile ss period records fuel remaining'

/-- `MeterGroup.train_test_split`, metergroup.py:1230-1275, given the good sections and the sample period (in seconds) of
the mains (`none`: there are no mains). The outer `none` means that more than `fuel` passes of the `while` loop are
needed. -/
def trainTestSplit (fuel : Nat) (mains : Option (List Section' × Rat)) (fraction : Rat) :
    Option (Except Err (Option Int)) :=
  if ¬ (0 < fraction ∧ fraction < 1) then some (.error .assertionError)
  else
    match mains with
    | none => some (.error .attributeError)
    | some (ss, period) =>
      if period = 0 ∧ ss ≠ [] then some (.error .zeroDivisionError)
      else
        let records := recordsOf period ss
        let recordsInTrain := (records.sum : Rat) * fraction
        match ss with
        | [s] => some (.ok (some (s.1 + timedeltaNs (truncInt (recordsInTrain * period) : Int))))
        | _ => splitWhile ss period records fuel recordsInTrain

end Nilmtk
