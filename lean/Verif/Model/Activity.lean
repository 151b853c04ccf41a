import Verif.Model.Resample
/-!
Model of `Electric.when_on`, `on_power_threshold`, `min_on_duration` (`nilmtk/electric.py:32-82`), `Appliance.on_power_threshold`
(`nilmtk/appliance.py:59-70`) and `Electric.activity_histogram` (`nilmtk/electric.py:655-708`).

Simplifications: as in `Model/Resample`; `period` and `bin_duration` are fixed numbers of seconds.
-/
namespace Nilmtk

/-- `DEFAULT_ON_POWER_THRESHOLD`, appliance.py. -/
def defaultOnPower : Rat := 10

/-- What an appliance knows about its power when on: `metadata['on_power_threshold']`,
`metadata['nominal_consumption']['on_power']`, and its type's `on_power_threshold` and `min_on_duration`. -/
structure ApplPower where
  own : Option Rat
  nominal : Option Rat
  ofType : Option Rat
  minOn : Option Rat

/-- `Appliance.on_power_threshold`, appliance.py:59-70. -/
def ApplPower.threshold (a : ApplPower) : Rat :=
  match a.own with
  | some x => x
  | none =>
    match a.nominal with
    | some x => x
    | none => a.ofType.getD defaultOnPower

/-- `Electric.on_power_threshold`, electric.py:54-61. -/
def onPowerThreshold : List ApplPower → Rat
  | [] => defaultOnPower
  | a :: as => as.foldl (fun m b => min m b.threshold) a.threshold

/-- `Electric.min_on_duration`, electric.py:63-82: the greatest of those that are known. -/
def minOnDuration (as : List ApplPower) : Rat :=
  match as.filterMap ApplPower.minOn with
  | [] => 0
  | x :: l => l.foldl max x

/-- One chunk of `when_on`, electric.py:50-53: `chunk >= on_power_threshold`, false for NaN. -/
def whenOn (threshold : Rat) (c : CorChunk) : List (Int × Bool) :=
  c.map (fun p => (p.1, match p.2 with
    | some v => decide (threshold ≤ v)
    | none => false))

/-- The body of the loop of `activity_histogram`, electric.py:686-706: what a chunk adds to the histogram. `P` and `B` are the
period and the width of a bin in nanoseconds, `nb` the number of bins. -/
def histOfChunk (P B : Int) (nb : Nat) (on : List (Int × Bool)) : List Nat :=
  if on.length < 5 then List.replicate nb 0
  else
    match on.head?, on.getLast? with
    | some a, some z =>
      let start := binStart P a.1
      let stop := start + ((z.1 - start) / P) * P + P
      let index := (List.range ((stop - start) / B).toNat).map (fun i : Nat => start + i * B)
      let values := index.map (fun t => if on.lookup t = some true then 1 else 0)
      (List.range nb).map (fun b : Nat =>
        ((List.range (values.length / nb)).map (fun r : Nat => values.getD (r * nb + b) 0)).sum)
    | _, _ => List.replicate nb 0

/-- The loop of `activity_histogram`, electric.py:685-708, over the chunks as they are on disk. -/
def activityLoop (d : Device) (threshold : Rat) (period bin : Nat) (hist : List Nat) : List CorChunk → Except Err (List Nat)
  | [] => .ok hist
  | c :: cs =>
    match loadColumn false d ⟨some bin, none, ⟨some .max, none, none⟩⟩ c with
    | .error e => .error e
    | .ok (out, _) =>
      activityLoop d threshold period bin
        (List.zipWith (· + ·) hist
          (histOfChunk (period * 1000000000) (bin * 1000000000) (period / bin) (whenOn threshold out))) cs

/-- `activity_histogram`, electric.py:655-708. -/
def activityHistogram (d : Device) (threshold : Rat) (period bin : Nat) (chunks : List CorChunk) : Except Err (List Nat) :=
  if bin = 0 then .error .zeroDivisionError
  else if period % bin ≠ 0 then .error .valueError
  else activityLoop d threshold period bin (List.replicate (period / bin) 0) chunks

end Nilmtk
