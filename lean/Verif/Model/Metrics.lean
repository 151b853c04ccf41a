import Verif.Model.Py
import Verif.Model.Hart
import Mathlib.Algebra.Order.Ring.Rat
import Mathlib.Data.List.Dedup
import Mathlib.Data.List.Sort
import Mathlib.Analysis.Real.Sqrt
/-!
Model of `nilmtk/metrics.py` (mean normalised error, RMS error, F1 score), for one pair of meters, and of
`align_two_meters`, `nilmtk/electric.py:830-861`.
-/
namespace Nilmtk

/-- A `Series` of power readings: timestamp and value (`none` is NaN). -/
abbrev PSeries := List (Int × Option Rat)

/-- The left edge of the bin of `resample` that holds a timestamp. Simplification: the sample period divides a day, so
that the bins of pandas (anchored at midnight) are the multiples of the period. -/
def binOf (p t : Int) : Int := t / p * p

/-- `mean()` of a list of readings, NaN ignored. -/
def meanSkipNan (vs : List (Option Rat)) : Option Rat :=
  if vs.filterMap id = [] then none else some ((vs.filterMap id).sum / ((vs.filterMap id).length : Nat))

/-- `series.resample(period_alias).mean()`, electric.py:854, 859: one row for every bin from the first to the last.
Simplification: the series is sorted, as for stored data. -/
def resampleMean (p : Int) (s : PSeries) : PSeries :=
  match s.head?, s.getLast? with
  | some f, some l =>
    (List.range (((binOf p l.1 - binOf p f.1) / p).toNat + 1)).map (fun i : Nat =>
      (binOf p f.1 + i * p, meanSkipNan ((s.filter (fun r => decide (binOf p r.1 = binOf p f.1 + i * p))).map Prod.snd)))
  | _, _ => []

/-- The value of a series at a timestamp, NaN if there is no such row. -/
def PSeries.at (s : PSeries) (t : Int) : Option Rat :=
  match s.find? (fun r => r.1 == t) with
  | none => none
  | some r => r.2

/-- An aligned chunk: timestamp, reading of the master, reading of the slave. -/
abbrev AChunk := List (Int × Option Rat × Option Rat)

/-- `pd.DataFrame({'master': a, 'slave': b})`, electric.py:861: the sorted union of both indexes. -/
def joinSeries (a b : PSeries) : AChunk :=
  ((a.map Prod.fst ++ b.map Prod.fst).dedup.insertionSort (· ≤ ·)).map (fun t => (t, a.at t, b.at t))

/-- `align_two_meters`, electric.py:840-861: `p` is the sample period of the master, `slave first last` the first chunk
that the slave yields for that window (`none`: it yields nothing, and `next` makes the generator raise `RuntimeError`).
A window whose last timestamp is not after its first is rejected by `TimeFrame`. -/
def alignTwo (p : Int) (slave : Int → Int → Option PSeries) : List PSeries → Gen AChunk
  | [] => .done
  | m :: ms =>
    if m.length < 2 then .done
    else
      match m.head?, m.getLast? with
      | some f, some l =>
        if l.1 ≤ f.1 then .raise .valueError
        else
          match slave f.1 l.1 with
          | none => .raise .runtimeError
          | some s =>
            if s = [] then alignTwo p slave ms
            else .cons (joinSeries (resampleMean p m) (resampleMean p s)) (alignTwo p slave ms)
      | _, _ => .done

/-- A float that may be infinite or NaN. -/
inductive FloatVal where
  | fin (q : Rat)
  | posInf
  | nan
  deriving DecidableEq, Repr

/-- `aligned_meters_chunk.iloc[:, 0] - aligned_meters_chunk.iloc[:, 1]` without NaN, metrics.py:146-147, 180-181. -/
def diffs (c : AChunk) : List Rat :=
  c.filterMap (fun r => match r.2.1, r.2.2 with | some a, some b => some (a - b) | _, _ => none)

/-- The accumulators of `mean_normalized_error_power`, metrics.py:142-148. -/
def mneLoop : Rat → Rat → List AChunk → Rat × Rat
  | d, g, [] => (d, g)
  | d, g, c :: cs => mneLoop (d + ((diffs c).map (fun x => |x|)).sum) (g + (c.filterMap (fun r => r.2.2)).sum) cs

/-- `mean_normalized_error_power` for one pair of meters, metrics.py:142-150. Without chunks both accumulators are Python
floats and the division raises; otherwise the denominator is a numpy float. Simplification: the sign of an infinite
result is that of the numerator, which is not negative. -/
def mneForMeter (cs : List AChunk) : Except Err FloatVal :=
  let (d, g) := mneLoop 0 0 cs
  if cs = [] then .error .zeroDivisionError
  else if g = 0 then .ok (if d = 0 then .nan else .posInf)
  else .ok (.fin (d / g))

/-- The accumulators of `rms_error_power`, metrics.py:176-183. -/
def rmsLoop : Rat → Nat → List AChunk → Rat × Nat
  | s, n, [] => (s, n)
  | s, n, c :: cs => rmsLoop (s + ((diffs c).map (fun x => x ^ 2)).sum) (n + (diffs c).length) cs

/-- The mean of the squared errors, the argument of `math.sqrt` at metrics.py:185 (`none` is NaN). -/
def meanSquare (cs : List AChunk) : Except Err (Option Rat) :=
  let (s, n) := rmsLoop 0 0 cs
  if cs = [] then .error .zeroDivisionError
  else if n = 0 then .ok none
  else .ok (some (s / n))

/-- `rms_error_power` for one pair of meters, metrics.py:176-185. -/
noncomputable def rmsForMeter (cs : List AChunk) : Except Err (Option Real) :=
  match meanSquare cs with
  | .error e => .error e
  | .ok v => .ok (v.map (fun q : Rat => Real.sqrt (q : Real)))

/-- `.dropna()` and `.astype(int)`, metrics.py:217-218: the rows with both states, truncated to whole numbers. -/
def intStates (c : AChunk) : List (Int × Int) :=
  c.filterMap (fun r => match r.2.1, r.2.2 with | some a, some b => some (truncInt a, truncInt b) | _, _ => none)

/-- `sklearn.metrics.f1_score` for states 0 and 1: twice the true positives over twice the true positives plus the
errors, 0 when there is nothing positive. -/
def f1 (rows : List (Int × Int)) : Rat :=
  let tp := rows.countP (fun r => decide (r.1 = 1 ∧ r.2 = 1))
  let wrong := rows.countP (fun r => decide ((r.1 = 1 ∧ r.2 ≠ 1) ∨ (r.1 ≠ 1 ∧ r.2 = 1)))
  if 2 * tp + wrong = 0 then 0 else (2 * tp : Nat) / (2 * tp + wrong : Nat)

/-- `f1_score` for one pair of meters, metrics.py:213-242: the mean of the scores of the chunks, weighted by their numbers
of rows; NaN without rows. -/
def f1ForMeter (cs : List AChunk) : Option Rat :=
  let scores := cs.map (fun c => (f1 (intStates c), (intStates c).length))
  let num := (scores.map Prod.snd).sum
  if 0 < num then some ((scores.map (fun s => s.1 * ((s.2 : Rat) / (num : Nat)))).sum) else none

end Nilmtk
