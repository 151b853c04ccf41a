import Verif.Model.Py
import Verif.Model.Metrics
import Mathlib.Analysis.Real.Sqrt
/-!
Model of `nilmtk/losses.py`, the losses of the experiment API.

A column is a list of readings, `none` being NaN. Arithmetic is exact: rounding and the sign of zero are not modelled.
-/
namespace Nilmtk

/-- A floating point result. -/
inductive FVal (α : Type) where
  | num (x : α)
  | posInf
  | negInf
  | nan
  deriving DecidableEq, Repr

/-- Division of floating point numbers. -/
def fdiv (a b : Rat) : FVal Rat :=
  if b = 0 then (if a = 0 then .nan else if 0 < a then .posInf else .negInf) else .num (a / b)

/-- `x ** .5`, `np.sqrt(x)`. -/
noncomputable def FVal.sqrt : FVal Rat → FVal Real
  | .num x => if x < 0 then .nan else .num (Real.sqrt (x : Real))
  | .posInf => .posInf
  | .negInf => .nan
  | .nan => .nan

/-- The rows where both columns have a reading. -/
def fullPairs (gt pred : List (Option Rat)) : List (Rat × Rat) :=
  (gt.zip pred).filterMap (fun p => match p.1, p.2 with
    | some a, some b => some (a, b)
    | _, _ => none)

/-- What scikit-learn's `_check_reg_targets` does with two columns: `ValueError` for different lengths, for no samples, and for
NaNs. -/
def checkTargets (gt pred : List (Option Rat)) : Except Err (List (Rat × Rat)) :=
  if gt.length ≠ pred.length ∨ gt = [] ∨ none ∈ gt ∨ none ∈ pred then .error .valueError else .ok (fullPairs gt pred)

/-- `mae`, losses.py:4-5. -/
def maeLoss (gt pred : List (Option Rat)) : Except Err (FVal Rat) :=
  match checkTargets gt pred with
  | .error e => .error e
  | .ok ps => .ok (.num ((ps.map (fun p => abs (p.1 - p.2))).sum / (ps.length : Nat)))

/-- `mean_squared_error`. -/
def mseLoss (gt pred : List (Option Rat)) : Except Err (FVal Rat) :=
  match checkTargets gt pred with
  | .error e => .error e
  | .ok ps => .ok (.num ((ps.map (fun p => (p.1 - p.2) ^ 2)).sum / (ps.length : Nat)))

/-- `rmse`, losses.py:7-8. -/
noncomputable def rmseLoss (gt pred : List (Option Rat)) : Except Err (FVal Real) :=
  match mseLoss gt pred with
  | .error e => .error e
  | .ok v => .ok v.sqrt

/-- `np.where(x < 10, 0, 1)`, losses.py:13, 15; a comparison with NaN is false. -/
def onState : Option Rat → Int
  | some x => if x < 10 then 0 else 1
  | none => 1

/-- `f1score`, losses.py:10-17. Simplification: at least one row. -/
def f1Loss (gt pred : List (Option Rat)) : Except Err (FVal Rat) :=
  if gt.length ≠ pred.length then .error .valueError
  else .ok (.num (f1 ((pred.map onState).zip (gt.map onState))))

/-- `np.mean` of a column of quotients: NaNs are left out; there are no negative infinities in the use below. -/
def meanFVal (l : List (FVal Rat)) : FVal Rat :=
  let l' := l.filter (fun v => decide (v ≠ .nan))
  if l' = [] then .nan
  else if .posInf ∈ l' then .posInf
  else .num ((l'.map (fun v => match v with | .num x => x | _ => 0)).sum / (l'.length : Nat))

/-- `relative_error`, losses.py:19-23. The columns have the same index. -/
def relativeLoss (gt pred : List (Option Rat)) : Except Err (FVal Rat) :=
  .ok (meanFVal ((fullPairs gt pred).map (fun p => fdiv (abs (p.1 - p.2)) (1 + p.2))))

/-- `r2score`, losses.py:25-27, with scikit-learn's conventions for fewer than two samples (NaN) and for a constant ground
truth. -/
def r2Loss (gt pred : List (Option Rat)) : Except Err (FVal Rat) :=
  match checkTargets gt pred with
  | .error e => .error e
  | .ok ps =>
    if ps.length < 2 then .ok .nan
    else
      let mean := (ps.map Prod.fst).sum / (ps.length : Nat)
      let num := (ps.map (fun p => (p.1 - p.2) ^ 2)).sum
      let den := (ps.map (fun p => (p.1 - mean) ^ 2)).sum
      if num = 0 then .ok (.num 1)
      else if den = 0 then .ok (.num 0)
      else .ok (.num (1 - num / den))

/-- The number under the square root of `nde`, losses.py:32-33: `np.sum` of a column leaves NaNs out. -/
def nde2 (gt pred : List (Option Rat)) : FVal Rat :=
  fdiv (((fullPairs gt pred).map (fun p => (p.1 - p.2) ^ 2)).sum) (((gt.filterMap id).map (fun x => x ^ 2)).sum)

/-- `nde`, losses.py:29-35. -/
noncomputable def ndeLoss (gt pred : List (Option Rat)) : Except Err (FVal Real) := .ok (nde2 gt pred).sqrt

/-- `nep`, losses.py:37-43. -/
def nepLoss (gt pred : List (Option Rat)) : Except Err (FVal Rat) :=
  .ok (fdiv (((fullPairs gt pred).map (fun p => abs (p.1 - p.2))).sum) ((gt.filterMap id).sum))

end Nilmtk
