import Verif.Model.Activations
import Verif.Model.Experiment
/-!
Model of the activations of a meter (`Electric.get_activations`, `nilmtk/electric.py:780-828`, with the defaults from the
metadata, 55-85) and of the activity script of a data set (`DataSet.get_activity_script`, `nilmtk/dataset.py:157-207`).

`sort_index` is an input, because pandas leaves the order of equal times open. The file is a dictionary. The chunks of
`power_series` are inputs. Printing and the conversion of numbers in the metadata are not modelled.
-/
namespace Nilmtk

/-- What `Appliance.appliance_types` says about a type. -/
structure AType where
  threshold : Option Rat
  minOn : Option Rat
  minOff : Option Rat
  deriving DecidableEq, Repr

/-- An appliance: `metadata['on_power_threshold']`, `metadata['nominal_consumption']['on_power']`,
`metadata['min_on_duration']`, `metadata['min_off_duration']` (`none`: not there) and its type (`none`: not recognised). -/
structure AAppl where
  own : Option Rat
  onPower : Option Rat
  ownMinOn : Option Rat
  ownMinOff : Option Rat
  kind : Option AType
  deriving DecidableEq, Repr

/-- `DEFAULT_ON_POWER_THRESHOLD`, appliance.py:9. -/
def defaultThreshold : Rat := 10

/-- `Appliance.on_power_threshold`, appliance.py:59-70. -/
def AAppl.onThreshold (a : AAppl) : Except Err Rat :=
  match a.own with
  | some t => .ok t
  | none =>
    match a.onPower with
    | some t => .ok t
    | none =>
      match a.kind with
      | none => .error .keyError
      | some k => .ok (k.threshold.getD defaultThreshold)

/-- `min(values)`. -/
def minOfRats : Rat → List Rat → Rat
  | m, [] => m
  | m, x :: xs => minOfRats (if x < m then x else m) xs

/-- `np.max(values)`. -/
def maxOfRats : Rat → List Rat → Rat
  | m, [] => m
  | m, x :: xs => maxOfRats (if m < x then x else m) xs

/-- `Electric.on_power_threshold`, electric.py:55-62. -/
def meterThreshold (as : List AAppl) : Except Err Rat :=
  match as with
  | [] => .ok defaultThreshold
  | _ =>
    match mapE AAppl.onThreshold as with
    | .error e => .error e
    | .ok [] => .error .valueError
    | .ok (t :: ts) => .ok (minOfRats t ts)

/-- The loop of `_aggregate_metadata_attribute`, electric.py:73-81, from the type of the appliances. -/
def attrValues (get : AType → Option Rat) : List AAppl → List Rat → Except Err (List Rat)
  | [], vs => .ok vs
  | a :: as, vs =>
    match a.kind with
    | none => .error .keyError
    | some k => attrValues get as (vs ++ (get k).toList)

/-- `_aggregate_metadata_attribute(attr)`, electric.py:70-86. -/
def aggregateAttr (get : AType → Option Rat) (as : List AAppl) : Except Err Rat :=
  match attrValues get as [] with
  | .error e => .error e
  | .ok [] => .ok 0
  | .ok (v :: vs) => .ok (maxOfRats v vs)

/-- The parameters of `get_activations`; `none` stands for `None`. -/
structure ActParams where
  minOff : Option Rat
  minOn : Option Rat
  border : Nat
  threshold : Option Rat
  deriving DecidableEq, Repr

/-- `if x is None: x = default()`. -/
def orDefault (x : Option Rat) (default : Except Err Rat) : Except Err Rat :=
  match x with
  | some v => .ok v
  | none => default

/-- The loop of `Electric.get_activations`, electric.py:820-826. -/
def activationsLoop (minOff minOn : Rat) (border : Nat) (threshold : Rat) :
    List PSeries → List PSeries → Except Err (List PSeries)
  | acts, [] => .ok acts
  | acts, chunk :: chunks =>
    match getActivations chunk minOff minOn border threshold with
    | .error e => .error e
    | .ok new => activationsLoop minOff minOn border threshold (acts ++ new) chunks

/-- `Electric.get_activations`, electric.py:780-828, for a meter with the appliances `as` whose `power_series` yields
`chunks`. -/
def meterActivations (as : List AAppl) (p : ActParams) (chunks : Gen PSeries) : Except Err (List PSeries) :=
  match orDefault p.threshold (meterThreshold as) with
  | .error e => .error e
  | .ok threshold =>
    match orDefault p.minOff (aggregateAttr AType.minOff as) with
    | .error e => .error e
    | .ok minOff =>
      match orDefault p.minOn (aggregateAttr AType.minOn as) with
      | .error e => .error e
      | .ok minOn =>
        match activationsLoop minOff minOn p.border threshold [] chunks.out with
        | .error e => .error e
        | .ok acts =>
          match chunks.err with
          | some e => .error e
          | none => .ok acts

/-- An activity script: instants with `True` (start) or `False` (end). -/
abbrev ActScript := List (Int × Bool)

/-- The loop that collects `starts` and `ends`, dataset.py:195-199. -/
def startsEnds : List PSeries → Except Err (List Int × List Int)
  | [] => .ok ([], [])
  | a :: as =>
    match a.head?, a.getLast? with
    | some r, some s =>
      match startsEnds as with
      | .error e => .error e
      | .ok (starts, ends) => .ok (r.1 :: starts, s.1 :: ends)
    | _, _ => .error .indexError

/-- The script of a meter, dataset.py:193-204. -/
def scriptOf (sort : ActScript → ActScript) (acts : List PSeries) : Except Err ActScript :=
  match startsEnds acts with
  | .error e => .error e
  | .ok (starts, ends) => .ok (sort (starts.map (fun t => (t, true)) ++ ends.map (fun t => (t, false))))

/-- A meter of a building: whether it is a site meter, the type and number of its dominant appliance, and what
`get_activations()` does. -/
structure ScriptMeter where
  site : Bool
  dominant : Except Err (Option (String × Nat))
  activations : Except Err (List PSeries)

/-- `type.replace(' ', '_')`. -/
def underscored (t : String) : String := String.ofList (t.toList.map (fun c => if c = ' ' then '_' else c))

/-- The key of a meter, dataset.py:187-190. -/
def scriptKey (b : Nat) (t : String) (i : Nat) : String :=
  "/building" ++ toString b ++ "/" ++ underscored t ++ "__" ++ toString i

/-- The loop over the meters of a building, dataset.py:185-205. `None` has no `identifier`. -/
def scriptMeters (sort : ActScript → ActScript) (b : Nat) : List ScriptMeter → List (String × ActScript) →
    Except Err (List (String × ActScript))
  | [], store => .ok store
  | m :: ms, store =>
    match m.dominant with
    | .error e => .error e
    | .ok none => .error .attributeError
    | .ok (some (t, i)) =>
      match m.activations with
      | .error e => .error e
      | .ok acts =>
        match scriptOf sort acts with
        | .error e => .error e
        | .ok s => scriptMeters sort b ms (dictSet store (scriptKey b t i) s)

/-- `DataSet.get_activity_script`, dataset.py:157-207: the content of the file. -/
def activityScript (sort : ActScript → ActScript) : List (Nat × List ScriptMeter) → List (String × ActScript) →
    Except Err (List (String × ActScript))
  | [], store => .ok store
  | (b, meters) :: bs, store =>
    match scriptMeters sort b (meters.filter (fun m => !m.site)) store with
    | .error e => .error e
    | .ok store' => activityScript sort bs store'

end Nilmtk
