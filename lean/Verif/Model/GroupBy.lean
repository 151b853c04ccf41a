import Verif.Model.Select
/-!
Model of `MeterGroup.groupby` (`nilmtk/metergroup.py:1355-1374`) and of what it uses: `dominant_appliance` of meters and groups,
`dominant_appliances` and `values_for_appliance_metadata_key`.

A set is listed in order of insertion. Warnings are not modelled.
-/
namespace Nilmtk

/-- The truth value of something in the metadata; `True` is the number 1. -/
def MVal.truthy : MVal → Bool
  | .atom (.str s) => s != ""
  | .atom (.num i) => i != 0
  | .list l => !l.isEmpty

/-- `app.metadata.get('dominant_appliance')` as a condition, elecmeter.py:185. -/
def Appl.markedDominant (a : Appl) : Bool :=
  match a.metadata.lookup "dominant_appliance" with
  | some v => v.truthy
  | none => false

/-- `ElecMeter.dominant_appliance`, elecmeter.py:174-191. -/
def dominantOf : List Appl → Option Appl
  | [] => none
  | [a] => some a
  | a :: as =>
    match (a :: as).find? Appl.markedDominant with
    | some d => some d
    | none => some a

/-- `==` of two appliances or `None`, `nilmtk/hashable.py:6-10`: only type and instance count. -/
def sameAppl : Option Appl → Option Appl → Bool
  | none, none => true
  | some a, some b => decide (a.type = b.type ∧ a.inst = b.inst)
  | _, _ => false

/-- `set.add`. -/
def addDominant (acc : List (Option Appl)) (a : Option Appl) : List (Option Appl) :=
  if acc.any (fun b => sameAppl b a) then acc else acc ++ [a]

/-- The choice of `MeterGroup.dominant_appliance`, metergroup.py:152-166. -/
def onlyDominant : List (Option Appl) → Except Err (Option Appl)
  | [] => .ok none
  | [a] => .ok a
  | _ => .error .runtimeError

mutual
/-- `meter.dominant_appliance()`; for a group metergroup.py:149-166. -/
def SMeter.dominant : SMeter → Except Err (Option Appl)
  | .elec e => .ok (dominantOf e.appliances)
  | .group ms =>
    match SMeter.dominants [] ms with
    | .error e => .error e
    | .ok ds => onlyDominant ds
/-- The set of the dominant appliances of a list of meters, metergroup.py:150-152 and `dominant_appliances`, 493-497. -/
def SMeter.dominants (acc : List (Option Appl)) : List SMeter → Except Err (List (Option Appl))
  | [] => .ok acc
  | m :: ms =>
    match m.dominant with
    | .error e => .error e
    | .ok a => SMeter.dominants (addDominant acc a) ms
end

/-- A value in the list of `values_for_appliance_metadata_key`: `categories` of an appliance type is a dictionary. -/
inductive GVal where
  | atom (a : MAtom)
  | dict
  deriving DecidableEq, Repr

/-- `append_or_extend_list`, utils.py:347-353. -/
def extendValues (values : List GVal) : Option MVal → List GVal
  | none => values
  | some (.list l) => values ++ l.map GVal.atom
  | some (.atom a) => values ++ [.atom a]

/-- `appliance.type.get(key)`, metergroup.py:520-521. -/
def extendFromType (values : List GVal) (i : ApplType) (k : String) : List GVal :=
  if k = "categories" ∧ i.categories.isSome then values ++ [.dict] else extendValues values (i.attrs.lookup k)

/-- The loop of `values_for_appliance_metadata_key`, metergroup.py:517-521. `None` has no `metadata`. -/
def valuesLoop (env : ApplTypes) (k : String) : List (Option Appl) → List GVal → Except Err (List GVal)
  | [], values => .ok values
  | none :: _, _ => .error .attributeError
  | some a :: as, values =>
    match a.typeInfo env with
    | .error e => .error e
    | .ok i => valuesLoop env k as (extendFromType (extendValues values (a.metadata.lookup k)) i k)

/-- `list(set(values))`, metergroup.py:522: a dictionary cannot be an element of a set. -/
def setOfValues (acc : List MAtom) : List GVal → Except Err (List MAtom)
  | [] => .ok acc
  | .dict :: _ => .error .typeError
  | .atom a :: vs => setOfValues (if a ∈ acc then acc else acc ++ [a]) vs

/-- `values_for_appliance_metadata_key(key)`, metergroup.py:499-522. -/
def valuesForKey (env : ApplTypes) (k : String) (ms : List SMeter) : Except Err (List MAtom) :=
  match SMeter.dominants [] ms with
  | .error e => .error e
  | .ok ds =>
    match valuesLoop env k ds [] with
    | .error e => .error e
    | .ok vs => setOfValues [] vs

/-- The loop of `groupby`, metergroup.py:1368-1372: name and meters of every group. -/
def groupLoop (env : ApplTypes) (k : String) (ms : List SMeter) : List MAtom → Except Err (List (MAtom × List SMeter))
  | [] => .ok []
  | v :: vs =>
    match selectUsingAppliances env [(k, .atom v)] ms with
    | .error e => .error e
    | .ok r =>
      match groupLoop env k ms vs with
      | .error e => .error e
      | .ok gs => .ok ((v, r) :: gs)

/-- `MeterGroup.groupby(key)`, metergroup.py:1355-1374, for a key other than `func`. -/
def groupBy (env : ApplTypes) (k : String) (ms : List SMeter) : Except Err (List (MAtom × List SMeter)) :=
  match valuesForKey env k ms with
  | .error e => .error e
  | .ok vs => groupLoop env k ms vs

end Nilmtk
