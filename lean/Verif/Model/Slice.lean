import Verif.Model.TimeFrame
/-!
Model of `TimeFrame.slice`, nilmtk/timeframe.py:194-213.
-/
namespace Nilmtk

/-- `TimeFrame.slice`, timeframe.py:194-213: the rows of the sliced frame and its attribute `timeframe`. For an empty TimeFrame `sliced` is not bound;
comparing times with `None` is a `TypeError`. Simplification: the index of the frame has times in every row, in the time zone of the TimeFrame. -/
def TF.slice {α : Type} (f : TF) (rows : List (Int × α)) : Except Err (List (Int × α) × TF) :=
  if f.empty then .error .unboundLocal
  else
    match f.start, f.stop with
    | some s, some e =>
      if f.includeEnd then .ok (rows.filter (fun r => decide (r.1 ≥ s) && decide (r.1 ≤ e)), f)
      else .ok (rows.filter (fun r => decide (r.1 ≥ s) && decide (r.1 < e)), f)
    | _, _ => .error .typeError

end Nilmtk
