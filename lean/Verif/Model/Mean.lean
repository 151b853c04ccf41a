import Verif.Model.Hart
import Mathlib.Algebra.BigOperators.Group.List.Basic
/-!
Model of the `Mean` disaggregator, `nilmtk/disaggregate/mean.py`.

Readings are exact; `none` is NaN. A training frame has one column, as `nilmtk/api.py` prepares it. Printing, saving and
loading of the model are not modelled.
-/
namespace Nilmtk

/-- `{'sum': ..., 'n_elem': ...}`, mean.py:23. -/
structure MeanStat where
  sum : Int
  nElem : Nat
  deriving DecidableEq, Repr

/-- `self.model`: a dictionary in insertion order. -/
abbrev MeanModel := List (String × MeanStat)

/-- `self.model[name] = stat`, mean.py:26: an existing key keeps its place. -/
def MeanModel.set (m : MeanModel) (name : String) (stat : MeanStat) : MeanModel :=
  if m.any (fun e => e.1 == name) then m.map (fun e => if e.1 == name then (name, stat) else e)
  else m ++ [(name, stat)]

/-- `np.nansum`. -/
def nanSumList (vs : List (Option Rat)) : Rat := (vs.map (fun v => v.getD 0)).sum

/-- The body of the loop of `partial_fit`, mean.py:20-26. The mask of line 25 is a data frame of booleans, which masks cells
but keeps every row: `len` counts all rows. `pd.concat` of nothing raises. -/
def meanFitOne (m : MeanModel) (name : String) (frames : List (List (Option Rat))) : Except Err MeanModel :=
  if frames = [] then .error .valueError
  else
    let old := (m.lookup name).getD ⟨0, 0⟩
    .ok (m.set name ⟨old.sum + truncInt (nanSumList frames.flatten), old.nElem + frames.flatten.length⟩)

/-- `Mean.partial_fit`, mean.py:18-28. -/
def meanFit (m : MeanModel) : List (String × List (List (Option Rat))) → Except Err MeanModel
  | [] => .ok m
  | (name, frames) :: rest =>
    match meanFitOne m name frames with
    | .error e => .error e
    | .ok m' => meanFit m' rest

/-- Several calls of `partial_fit` one after the other. -/
def meanFitAll (m : MeanModel) : List (List (String × List (List (Option Rat)))) → Except Err MeanModel
  | [] => .ok m
  | c :: cs =>
    match meanFit m c with
    | .error e => .error e
    | .ok m' => meanFitAll m' cs

/-- One column of the prediction for one test frame, mean.py:35-37. -/
def meanColumn (s : MeanStat) (index : List Int) : Except Err (List (Int × Rat)) :=
  if s.nElem = 0 then .error .zeroDivisionError
  else .ok (index.map (fun t => (t, (s.sum : Rat) / (s.nElem : Rat))))

/-- The prediction for one test frame, mean.py:33-38. -/
def meanFrame (index : List Int) : MeanModel → Except Err (List (String × List (Int × Rat)))
  | [] => .ok []
  | (name, s) :: rest =>
    match meanColumn s index with
    | .error e => .error e
    | .ok c =>
      match meanFrame index rest with
      | .error e => .error e
      | .ok cs => .ok ((name, c) :: cs)

/-- `Mean.disaggregate_chunk`, mean.py:30-39. -/
def meanPredict (m : MeanModel) : List (List Int) → Except Err (List (List (String × List (Int × Rat))))
  | [] => .ok []
  | index :: rest =>
    match meanFrame index m with
    | .error e => .error e
    | .ok f =>
      match meanPredict m rest with
      | .error e => .error e
      | .ok fs => .ok (f :: fs)

end Nilmtk
