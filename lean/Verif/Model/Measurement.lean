import Verif.Model.Py
import Mathlib.Data.List.Dedup
import Mathlib.Algebra.Order.Ring.Rat
/-!
Model of `nilmtk/measurement.py`, of the column selection in `nilmtk/elecmeter.py` and of
`nilmtk/preprocessing/clip.py`.

Names are strings; a column is a pair (physical quantity, type), the type being `''` when absent.
-/
namespace Nilmtk

/-- A column of a table: `(physical_quantity, ac_type)`. -/
abbrev Col := String × String

/-- `AC_TYPES`, measurement.py:5. -/
def acTypeNames : List String := ["active", "apparent", "reactive"]

/-- `PHYSICAL_QUANTITIES`, measurement.py:9-11. -/
def physicalQuantities : List String :=
  ["power", "energy", "cumulative energy", "voltage", "current", "pf", "frequency", "power factor", "state",
   "phase angle"]

/-- `check_ac_type`, measurement.py:16-20. -/
def checkAcType (t : String) : Except Err Unit :=
  if t ∈ acTypeNames then .ok () else .error .measurementError

/-- `check_physical_quantity`, measurement.py:22-27. -/
def checkPhysicalQuantity (q : String) : Except Err Unit :=
  if q ∈ physicalQuantities then .ok () else .error .measurementError

/-- The loop and the `KeyError`, measurement.py:54-60, with `mains_ac_types=None`. -/
def selectBestAvailable (available : List String) : Except Err String :=
  match acTypeNames.find? (fun t => t ∈ available) with
  | some t => .ok t
  | none => .error .keyError

/-- `select_best_ac_type`, measurement.py:29-64. The second component tells whether the warning is
issued. -/
def selectBestAcType (available : List String) (mains : Option (List String)) : Except Err (String × Bool) :=
  match mains with
  | none => (selectBestAvailable available).map (fun t => (t, false))
  | some ms =>
    match (acTypeNames.filter (fun t => t ∈ ms)).find? (fun t => t ∈ available) with
    | some t => .ok (t, false)
    | none => (selectBestAvailable available).map (fun t => (t, true))

/-- `measurement_columns`, measurement.py:67-81: the checks. -/
def measurementColumns : List Col → Except Err (List Col)
  | [] => .ok []
  | (q, t) :: cols =>
    match checkPhysicalQuantity q with
    | .error e => .error e
    | .ok () =>
      match (if q = "energy" ∨ q = "cumulative energy" ∨ q = "power" then checkAcType t else .ok ()) with
      | .error e => .error e
      | .ok () =>
        match measurementColumns cols with
        | .error e => .error e
        | .ok l => .ok ((q, t) :: l)

/-- An entry of `device['measurements']`. -/
structure Measurement where
  pq : String
  type : Option String
  lower : Option Rat
  upper : Option Rat
  deriving DecidableEq, Repr

/-- `available_ac_types`, elecmeter.py:245-267, for one physical quantity: `ValueError` for an unknown
one. -/
def availableAcTypes (ms : List Measurement) (q : String) : Except Err (List String) :=
  if q ∈ physicalQuantities then .ok ((ms.filter (fun m => m.pq = q)).filterMap Measurement.type)
  else .error .valueError

/-- `available_physical_quantities`, elecmeter.py:269-276. The order of Python's `list(set(...))` is arbitrary; the
theorems speak about membership only. -/
def availablePhysicalQuantities (ms : List Measurement) : List String := (ms.map Measurement.pq).dedup

/-- `available_columns`, elecmeter.py:278-286. -/
def availableColumns (ms : List Measurement) : List Col :=
  (ms.map (fun m => (m.pq, m.type.getD ""))).dedup

/-- A request for a physical quantity or an AC type: `None`, a string, or a list of strings. -/
inductive Req where
  | none
  | one (s : String)
  | many (l : List String)
  deriving DecidableEq, Repr

/-- Python truthiness of a request. -/
def Req.truthy : Req → Bool
  | .none => false
  | .one s => decide (s ≠ "")
  | .many l => !l.isEmpty

/-- Apply a function to every element and flatten, stopping at the first error. -/
def collect {α β : Type} (f : α → Except Err (List β)) : List α → Except Err (List β)
  | [] => .ok []
  | a :: as =>
    match f a with
    | .error e => .error e
    | .ok x =>
      match collect f as with
      | .error e => .error e
      | .ok y => .ok (x ++ y)

/-- `_ac_type_to_columns` for one string, elecmeter.py:470-473. -/
def acTypeToColumns1 (ms : List Measurement) (t : String) : Except Err (List Col) :=
  match checkAcType t with
  | .error e => .error e
  | .ok () => .ok ((availableColumns ms).filter (fun c => c.2 = t))

/-- `_ac_type_to_columns`, elecmeter.py:462-473. -/
def acTypeToColumns (ms : List Measurement) : Req → Except Err (List Col)
  | .none => .ok []
  | .one t => acTypeToColumns1 ms t
  | .many l => (collect (acTypeToColumns1 ms) l).map List.dedup

/-- `_physical_quantity_to_columns` for one string, elecmeter.py:484-487. -/
def pqToColumns1 (ms : List Measurement) (q : String) : Except Err (List Col) :=
  match checkPhysicalQuantity q with
  | .error e => .error e
  | .ok () => .ok ((availableColumns ms).filter (fun c => c.1 = q))

/-- `_physical_quantity_to_columns`, elecmeter.py:475-487. -/
def pqToColumns (ms : List Measurement) : Req → Except Err (List Col)
  | .none => .ok []
  | .one q => pqToColumns1 ms q
  | .many l => (collect (pqToColumns1 ms) l).map List.dedup

/-- `_get_columns_with_best_ac_type` for one string, elecmeter.py:501-512. -/
def bestColumns1 (ms : List Measurement) (q : String) : Except Err (List Col) :=
  match checkPhysicalQuantity q with
  | .error e => .error e
  | .ok () =>
    if q ∉ availablePhysicalQuantities ms then .ok []
    else
      match availableAcTypes ms q with
      | .error e => .error e
      | .ok types =>
        match selectBestAcType types none with
        | .error _ => .ok []
        | .ok (t, _) => .ok [(q, t)]

/-- `_get_columns_with_best_ac_type`, elecmeter.py:489-512. -/
def bestColumns (ms : List Measurement) : Req → Except Err (List Col)
  | .none => (collect (bestColumns1 ms) (availablePhysicalQuantities ms)).map List.dedup
  | .one q => bestColumns1 ms q
  | .many l => (collect (bestColumns1 ms) l).map List.dedup

/-- The branch for an AC type (other than `'best'`) and/or a physical quantity, elecmeter.py:539-558: the columns,
or `MeasurementError` when a message was collected. -/
def columnsFor (ms : List Measurement) (pq ac : Req) : Except Err (List Col) :=
  match (if ac.truthy then (acTypeToColumns ms ac).map some else .ok none) with
  | .error e => .error e
  | .ok acCols =>
    match (if pq.truthy then (pqToColumns ms pq).map some else .ok none) with
    | .error e => .error e
    | .ok pqCols =>
      match acCols, pqCols with
      | some a, some q =>
        if a = [] ∨ q = [] then .error .measurementError
        else
          let both := a.filter (fun c => c ∈ q)
          if both = [] then .error .measurementError else .ok both
      | some a, none => if a = [] then .error .measurementError else .ok a
      | none, some q => if q = [] then .error .measurementError else .ok q
      | none, none => .ok []

/-- `_convert_physical_quantity_and_ac_type_to_cols`, elecmeter.py:514-563: the value of `columns`. -/
def convertToCols (ms : List Measurement) (pq ac : Req) (columns : Option (List Col)) : Except Err (List Col) :=
  if columns.getD [] ≠ [] then
    if ac.truthy || pq.truthy then .error .valueError
    else if ∀ c ∈ columns.getD [], c ∈ availableColumns ms then .ok (columns.getD [])
    else .error .measurementError
  else if !(ac.truthy || pq.truthy) then .ok (availableColumns ms)
  else if ac = .one "best" then
    match bestColumns ms pq with
    | .error e => .error e
    | .ok cols => if cols = [] then .error .measurementError else .ok cols
  else columnsFor ms pq ac

/-! ### Clip -/

/-- A named column with its values (`none` is NaN) in row order. -/
abbrev VCol := Col × List (Option Rat)

/-- `_find_limits`, clip.py:47-58. `m.get('type')` is `None` when absent, and `None` is never equal to a column's
type, which is a string. -/
def findLimits (c : Col) : List Measurement → Option Rat × Option Rat
  | [] => (none, none)
  | m :: ms => if m.pq = c.1 ∧ m.type = some c.2 then (m.lower, m.upper) else findLimits c ms

/-- `Series.clip(lower, upper)` on one value; pandas exchanges the two limits when they are in the wrong
order, and keeps NaN. -/
def clipValue (lower upper : Rat) (x : Option Rat) : Option Rat :=
  x.map (fun v => min (max v (min lower upper)) (max lower upper))

/-- `self.lower`/`self.upper` take precedence over the limits found, clip.py:33-34. -/
def limitsFor (selfLower selfUpper : Option Rat) (ms : List Measurement) (c : Col) : Option Rat × Option Rat :=
  (selfLower.or (findLimits c ms).1, selfUpper.or (findLimits c ms).2)

/-- Replace the first column called `c` (`index_of_column_name`, utils.py:92-96, and the assignment to
`chunk.iloc[:, icol]`). -/
def updateCol (f : List (Option Rat) → List (Option Rat)) (c : Col) : List VCol → List VCol
  | [] => []
  | v :: vs => if v.1 = c then (v.1, f v.2) :: vs else v :: updateCol f c vs

/-- The body of `for measurement in chunk`, clip.py:32-39. -/
def clipStep (selfLower selfUpper : Option Rat) (ms : List Measurement) (chunk : List VCol) (c : Col) : List VCol :=
  match limitsFor selfLower selfUpper ms c with
  | (some lo, some hi) => updateCol (List.map (clipValue lo hi)) c chunk
  | _ => chunk

/-- `Clip.process` on one chunk, clip.py:31-41. -/
def clipChunk (selfLower selfUpper : Option Rat) (ms : List Measurement) (chunk : List VCol) : List VCol :=
  (chunk.map Prod.fst).foldl (clipStep selfLower selfUpper ms) chunk

end Nilmtk
