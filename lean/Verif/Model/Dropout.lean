import Verif.Model.Energy
import Verif.Model.Results
import Mathlib.Data.Rat.Floor
/-!
Model of `nilmtk/stats/dropoutrate.py`, `nilmtk/stats/dropoutrateresults.py` and
`nilmtk/stats/totalenergyresults.py`.

Numbers are exact rationals, `none` is NaN.
-/
namespace Nilmtk

/-- Python's `round(x)`: nearest integer, ties to the even one. -/
def pyRound (x : Rat) : Int :=
  let f := ⌊x⌋
  if x - f < 1 / 2 then f
  else if 1 / 2 < x - f then f + 1
  else if f % 2 = 0 then f else f + 1

/-- `MIN_N_SAMPLES`, dropoutrate.py:40. -/
def minNSamples : Nat := 5

/-- `get_dropout_rate`, dropoutrate.py:25-52, for the index of the data; `sp` is `sample_period` in
seconds; `none` is NaN. Lists shorter than five are caught first, so `index[0]` exists. -/
def getDropoutRate (index : List Int) (sp : Rat) : Except Err (Option Rat) :=
  if index.length < minNSamples then .ok none
  else
    match index.head?, index.getLast? with
    | some a, some b =>
      if ¬ (b > a) then .error .assertionError
      else if sp = 0 then .error .zeroDivisionError
      else
        let nExpected := pyRound (toSecs (b - a) / sp) + 1
        if nExpected = 0 then .error .zeroDivisionError
        else
          let rate : Rat := 1 - (index.length : Rat) / nExpected
          let rate := if rate < 0 then 0 else rate
          if 1 ≥ rate ∧ rate ≥ 0 then .ok (some rate) else .error .assertionError
    | _, _ => .error .indexError

/-- A row of `DropoutRateResults._data`: `dropout_rate` (NaN is `none`) and `n_samples`. -/
structure DRow where
  rate : Option Rat
  n : Nat
  deriving DecidableEq, Repr

/-- `DropoutRate.process`, dropoutrate.py:14-22: one row per chunk. -/
def dropoutRows (sp : Rat) (chunks : List (List Int)) : Except Err (List DRow) :=
  match chunks with
  | [] => .ok []
  | c :: cs =>
    match getDropoutRate c sp with
    | .error e => .error e
    | .ok r =>
      match dropoutRows sp cs with
      | .error e => .error e
      | .ok rows => .ok (⟨r, c.length⟩ :: rows)

/-- Product of two possibly-NaN numbers. -/
def nanMul : Option Rat → Option Rat → Option Rat
  | some a, some b => some (a * b)
  | _, _ => none

/-- Sum of two possibly-NaN numbers. -/
def nanAdd : Option Rat → Option Rat → Option Rat
  | some a, some b => some (a + b)
  | _, _ => none

/-- `Series.sum()`: NaNs are skipped. -/
def skipSum (l : List (Option Rat)) : Rat := (l.filterMap id).sum

/-- `DropoutRateResults.combined`, dropoutrateresults.py:17-27. A zero `tot_samples` makes the
proportions NaN. -/
def dropoutCombined (rows : List DRow) : Rat :=
  let tot := (rows.map DRow.n).sum
  skipSum (rows.map (fun r => nanMul r.rate (if tot = 0 then none else some ((r.n : Rat) / tot))))

/-- The mean stored by `unify`, dropoutrateresults.py:33-34. -/
def halve (x : Option Rat) : Option Rat := x.map (· / 2)

/-- The body of the loop of `DropoutRateResults.unify`, dropoutrateresults.py:31-36, for a row and the matching row
of `other`. -/
def dropoutUnifyRow (r : RRow DRow) : Option (RRow DRow) → RRow DRow
  | none => r
  | some o => { r with val := ⟨halve (nanAdd r.val.rate o.val.rate), r.val.n + o.val.n⟩ }

/-- `DropoutRateResults.unify`, dropoutrateresults.py:29-36 (rows matched by their start; the base class checks
the ends, results.py:112-129). The chained assignment `df[col].loc[i] += x` is taken as effective. -/
def dropoutUnify (self other : List (RRow DRow)) : Except Err (List (RRow DRow)) :=
  match Results.unifyCheck self other with
  | .error e => .error e
  | .ok () => .ok (self.map (fun r => dropoutUnifyRow r (Results.loc other r.start)))

/-- `MeterGroup.dropout_rate(full_results=True)`, metergroup.py:908-913: the first meter's results are unified
with each other meter's in turn. -/
def dropoutUnifyAll : List (RRow DRow) → List (List (RRow DRow)) → Except Err (List (RRow DRow))
  | acc, [] => .ok acc
  | acc, o :: os =>
    match dropoutUnify acc o with
    | .error e => .error e
    | .ok acc' => dropoutUnifyAll acc' os

/-- `TotalEnergyResults._data`: the AC-type columns, and the rows giving each column a value (NaN is
`none`). -/
structure TEResults where
  cols : List AC
  rows : List (RRow (AC → Option Rat))

/-- The body of the row loop of `TotalEnergyResults.unify`, totalenergyresults.py:33-34. -/
def teUnifyRow (cols : List AC) (r : RRow (AC → Option Rat)) : Option (RRow (AC → Option Rat)) → RRow (AC → Option Rat)
  | none => r
  | some o => { r with val := fun c => if c ∈ cols then nanAdd (r.val c) (o.val c) else r.val c }

/-- The row loop of `TotalEnergyResults.unify`, totalenergyresults.py:31-34; `KeyError` when the other object
lacks a column. The chained assignment is taken as effective. -/
def TEResults.unify (self other : TEResults) : Except Err TEResults :=
  match Results.unifyCheck self.rows other.rows with
  | .error e => .error e
  | .ok () =>
    if self.rows ≠ [] ∧ ∃ c ∈ self.cols, c ∉ other.cols then .error .keyError
    else .ok ⟨self.cols, self.rows.map (fun r => teUnifyRow self.cols r (Results.loc other.rows r.start))⟩

/-- `Results.combined`, results.py:33-41: per column, the sum over the rows, NaNs skipped. -/
def TEResults.combined (self : TEResults) : List (AC × Rat) :=
  self.cols.map (fun c => (c, skipSum (self.rows.map (fun r => r.val c))))

/-- `MeterGroup.total_energy(full_results=True)`, metergroup.py:862-870. -/
def TEResults.unifyAll : TEResults → List TEResults → Except Err TEResults
  | acc, [] => .ok acc
  | acc, o :: os =>
    match acc.unify o with
    | .error e => .error e
    | .ok acc' => TEResults.unifyAll acc' os

/-- `series += other` for two energy Series (pandas: the sum is aligned on the labels, a label missing on one side
gives NaN, and the in-place operator keeps only the labels of `series`). -/
def seriesIadd (self other : List (AC × Option Rat)) : List (AC × Option Rat) :=
  self.map (fun p => (p.1, nanAdd p.2 ((other.lookup p.1).getD none)))

/-- `MeterGroup.total_energy()` with `full_results=False`, metergroup.py:862-870; `None` for an empty
group. -/
def groupTotalEnergy : List (List (AC × Option Rat)) → Option (List (AC × Option Rat))
  | [] => none
  | s :: ss => some (ss.foldl seriesIadd s)

/-- `TotalEnergyResults.append`, totalenergyresults.py:19-27: `KeyError` for a key that is no AC type; a missing
column is NaN in the other rows (`DataFrame.append`). -/
def TEResults.append (self : TEResults) (tf : TF) (new : List (AC × Option Rat)) : Except Err TEResults :=
  if ∃ p ∈ new, p.1 ∉ acTypes then .error .keyError
  else
    match Results.append self.rows tf (fun c => (new.lookup c).getD none) with
    | .error e => .error e
    | .ok rows => .ok ⟨self.cols ++ (new.map Prod.fst).filter (fun c => c ∉ self.cols), rows⟩

/-- `export_to_cache`, totalenergyresults.py:42-43: NaN becomes 0. -/
def TEResults.exportToCache (self : TEResults) : TEResults :=
  ⟨self.cols, self.rows.map (fun r => { r with val := fun c => if c ∈ self.cols then some ((r.val c).getD 0) else none })⟩

end Nilmtk
