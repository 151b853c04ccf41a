import Verif.Model.TimeFrame
import Mathlib.Data.List.Sort
/-!
Model of `nilmtk/results.py`: the table of per-period results.

A `Results` object is the list of rows of its DataFrame `_data`: the index (period start), the
column `end` and the remaining columns (`val`).
Simplification: starts and ends are set (no `None`/`NaT`); timezone handling is left out.
-/
namespace Nilmtk

/-- One row of `_data`. -/
structure RRow (α : Type) where
  start : Int
  stop : Int
  val : α
  deriving DecidableEq, Repr

/-- `for index, series in self._data.iterrows(): TimeFrame(index, series['end']).check_for_overlap(timeframe)`,
results.py:67-70. -/
def checkRows {α : Type} (tf : TF) : List (RRow α) → Except Err Unit
  | [] => .ok ()
  | r :: rows =>
    match TF.ctor (some r.start) (some r.stop) with
    | .error e => .error e
    | .ok f =>
      match f.checkForOverlap tf with
      | .error e => .error e
      | .ok () => checkRows tf rows

/-- `self._data.sort_index(inplace=True)`. -/
def sortRows {α : Type} (rows : List (RRow α)) : List (RRow α) :=
  rows.insertionSort (fun a b => a.start ≤ b.start)

/-- `Results.append`, results.py:52-78. The type checks at lines 60-65 are covered by typing. The check
`verify_integrity=True` raises `ValueError` for a duplicate start. A timeframe without start or end is outside the
model (reported as `notImplemented`). -/
def Results.append {α : Type} (rows : List (RRow α)) (tf : TF) (v : α) : Except Err (List (RRow α)) :=
  match checkRows tf rows with
  | .error e => .error e
  | .ok () =>
    match tf.start, tf.stop with
    | some s, some e =>
      if rows.any (fun r => decide (r.start = s)) then .error .valueError
      else .ok (sortRows (rows ++ [⟨s, e, v⟩]))
    | _, _ => .error .notImplemented

/-- The object after a call of `append`: `_data` is assigned (line 77) only after every step that can
raise, so a raising call leaves it as it was. -/
def Results.appendState {α : Type} (rows : List (RRow α)) (tf : TF) (v : α) : List (RRow α) × Option Err :=
  match Results.append rows tf v with
  | .error e => (rows, some e)
  | .ok rows' => (rows', none)

/-- `Results.check_for_overlap`, results.py:80-90. -/
def Results.checkForOverlap {α : Type} : List (RRow α) → Except Err Unit
  | [] => .ok ()
  | r :: rows =>
    match rows with
    | [] => match TF.ctor (some r.start) (some r.stop) with
      | .error e => .error e
      | .ok _ => .ok ()
    | rows =>
      match checkPairs r rows with
      | .error e => .error e
      | .ok () => Results.checkForOverlap rows
where
  /-- The inner loop: `tf1` against each later row. -/
  checkPairs (r : RRow α) : List (RRow α) → Except Err Unit
    | [] => .ok ()
    | q :: qs =>
      match TF.ctor (some r.start) (some r.stop), TF.ctor (some q.start) (some q.stop) with
      | .ok f, .ok g =>
        match f.checkForOverlap g with
        | .error e => .error e
        | .ok () => checkPairs r qs
      | _, _ => .error .valueError

/-- `Results.update`, results.py:92-110: the new state of `self`, and the exception raised, if any.
`_data` is replaced before the overlap check. -/
def Results.update {α : Type} (self other : List (RRow α)) : List (RRow α) × Option Err :=
  if other.isEmpty then (self, none)
  else
    let data := sortRows (self ++ other)
    match Results.checkForOverlap data with
    | .error e => (data, some e)
    | .ok () => (data, none)

/-- `other._data.loc[i]`: first row with that start. -/
def Results.loc {α : Type} (rows : List (RRow α)) (i : Int) : Option (RRow α) :=
  rows.find? (fun r => decide (r.start = i))

/-- `Results.unify`, results.py:112-129. `.loc[i]` raises `KeyError` for a missing row before the
membership test is reached. -/
def Results.unifyCheck {α : Type} (self other : List (RRow α)) : Except Err Unit :=
  match self with
  | [] => .ok ()
  | r :: rows =>
    match Results.loc other r.start with
    | none => .error .keyError
    | some o => if o.stop ≠ r.stop then .error .runtimeError else Results.unifyCheck rows other

/-- `Results.timeframes`, results.py:189-195. -/
def Results.timeframes {α : Type} : List (RRow α) → Except Err (List TF)
  | [] => .ok []
  | r :: rows =>
    match TF.ctor (some r.start) (some r.stop) with
    | .error e => .error e
    | .ok f =>
      match Results.timeframes rows with
      | .error e => .error e
      | .ok fs => .ok (f :: fs)

/-- `Results.import_from_cache`, results.py:131-170: for each requested section, every cached row
with the same start and the same end, in cache order; then sorted by start. Simplification: sections
have both bounds (TimeFrame is always truthy in Python 3; a section without start matches no row). -/
def Results.importFromCache {α : Type} (cached : List (RRow α)) (sections : List TF) : List (RRow α) :=
  sortRows ((sections.map (fun s => cached.filter (fun r =>
    decide (some r.start = s.start) && decide (some r.stop = s.stop)))).flatten)

end Nilmtk
