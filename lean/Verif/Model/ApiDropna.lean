import Verif.Model.Py
import Mathlib.Algebra.Order.Ring.Rat
/-!
Model of `API.dropna`, `nilmtk/api.py:277-296`.
-/
namespace Nilmtk

/-- A `DataFrame`: its rows, each with a timestamp and one reading per column (`none` is NaN). -/
abbrev RowFrame := List (Int × List (Option Rat))

/-- `df.index`. -/
def RowFrame.index (f : RowFrame) : List Int := f.map Prod.fst

/-- `df.dropna()`: the rows without NaN. -/
def RowFrame.dropna (f : RowFrame) : RowFrame := f.filter (fun r => r.2.all (fun x => x.isSome))

/-- `ix.intersection(other)`: the labels of `ix` that are in `other`, in the order of `ix`. Simplification: for indexes
without repeated labels. -/
def indexIntersection (ix other : List Int) : List Int := ix.filter (fun t => other.contains t)

/-- `df.loc[ix]`: for each label the row with that label, `KeyError` if there is none. Simplification: for an index
without repeated labels (with repetitions pandas returns every matching row for each label). -/
def RowFrame.loc (f : RowFrame) : List Int → Except Err RowFrame
  | [] => .ok []
  | t :: ts =>
    match f.find? (fun r => r.1 == t) with
    | none => .error .keyError
    | some r =>
      match f.loc ts with
      | .error e => .error e
      | .ok rs => .ok (r :: rs)

/-- The loop at api.py:290-291. -/
def intersectAll (ix : List Int) : List RowFrame → List Int
  | [] => ix
  | f :: fs => intersectAll (indexIntersection ix f.index) fs

/-- The loop at api.py:294-295. -/
def locAll (ix : List Int) : List RowFrame → Except Err (List RowFrame)
  | [] => .ok []
  | f :: fs =>
    match f.loc ix with
    | .error e => .error e
    | .ok g =>
      match locAll ix fs with
      | .error e => .error e
      | .ok gs => .ok (g :: gs)

/-- `API.dropna`, api.py:277-296: the new mains, the new appliances, and what the caller's list of appliances has become
(api.py:287-288 replaces its elements). -/
def apiDropna (mains : RowFrame) (appliances : List RowFrame) :
    Except Err (RowFrame × List RowFrame × List RowFrame) :=
  let mains1 := mains.dropna
  match mains1.loc mains1.index with
  | .error e => .error e
  | .ok mains2 =>
    let apps := appliances.map RowFrame.dropna
    let ix := intersectAll mains1.index apps
    match mains2.loc ix with
    | .error e => .error e
    | .ok mains3 =>
      match locAll ix apps with
      | .error e => .error e
      | .ok apps' => .ok (mains3, apps', apps)

end Nilmtk
