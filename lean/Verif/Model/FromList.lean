import Verif.Model.Group
/-!
Model of assembling groups from identifiers: `from_list`, `from_other_metergroup` and `select_top_k` of `MeterGroup`,
`nilmtk/metergroup.py:403-475, 1306-1353`.
-/
namespace Nilmtk

/-- `self[key]` with an `ElecMeterID`, metergroup.py:209-230. What it does for instance 0 (the mains of the building) and for
a tuple of instances is the parameter `special`. -/
def lookupId (special : MeterId → Except Err Meter) (ms : List Meter) (id : MeterId) : Except Err Meter :=
  match id.inst with
  | .one i => if i = 0 then special id else findMeter id ms
  | .many _ => special id

mutual
/-- One step of `from_list` with an `ElecMeterID` or a `MeterGroupID`, metergroup.py:418-425 and 434-437. -/
def assemble (special : MeterId → Except Err Meter) (ms : List Meter) : Ident → Except Err Meter
  | .meter id => lookupId special ms id
  | .group ids =>
    match findGroup ids ms with
    | .ok g => .ok g
    | .error .keyError =>
      match assembleAll special ms [] ids with
      | .error e => .error e
      | .ok r => .ok (mkGroup r)
    | .error e => .error e
/-- The loop of `from_list` over identifiers, metergroup.py:426-441; `seen` is `already_processed`. Simplification: the
`meters` of a `MeterGroupID` are identifiers, not plain tuples. -/
def assembleAll (special : MeterId → Except Err Meter) (ms : List Meter) (seen : List Ident) :
    List Ident → Except Err (List Meter)
  | [] => .ok []
  | i :: is =>
    if seen.any (Ident.beq i) then assembleAll special ms seen is
    else
      match assemble special ms i with
      | .error e => .error e
      | .ok m =>
        match assembleAll special ms (i :: seen) is with
        | .error e => .error e
        | .ok r => .ok (m :: r)
end

/-- An element of the argument of `from_list`: an identifier, a plain tuple of identifiers, or anything else. -/
inductive GKey where
  | id (i : Ident)
  | tuple (ids : List Ident)
  | other

/-- Equality of two elements. A plain tuple of identifiers never equals an identifier. -/
def GKey.beq : GKey → GKey → Bool
  | .id a, .id b => Ident.beq a b
  | .tuple as, .tuple bs => Ident.beqs as bs
  | .other, .other => true
  | _, _ => false

/-- One step of `from_list`, metergroup.py:433-441. -/
def fromKey (special : MeterId → Except Err Meter) (ms : List Meter) : GKey → Except Err Meter
  | .id i => assemble special ms i
  | .tuple ids => assemble special ms (.group ids)
  | .other => .error .typeError

/-- The loop of `from_list`, metergroup.py:426-441. -/
def fromLoop (special : MeterId → Except Err Meter) (ms : List Meter) (seen : List GKey) :
    List GKey → Except Err (List Meter)
  | [] => .ok []
  | k :: ks =>
    if seen.any (GKey.beq k) then fromLoop special ms seen ks
    else
      match fromKey special ms k with
      | .error e => .error e
      | .ok m =>
        match fromLoop special ms (k :: seen) ks with
        | .error e => .error e
        | .ok r => .ok (m :: r)

/-- `MeterGroup.from_list`, metergroup.py:403-443, of a group with the meters `ms`. -/
def fromList (special : MeterId → Except Err Meter) (ms : List Meter) (keys : List GKey) : Except Err Meter :=
  match fromLoop special ms [] keys with
  | .error e => .error e
  | .ok r => .ok (mkGroup r)

/-- The identifiers made by `from_other_metergroup`, metergroup.py:462-472. A `MeterGroupID` has no field `dataset`, so
`_replace` raises `ValueError`. -/
def otherKeys (dataset : String) : List Ident → Except Err (List GKey)
  | [] => .ok []
  | .group _ :: _ => .error .valueError
  | .meter id :: is =>
    match otherKeys dataset is with
    | .error e => .error e
    | .ok ks =>
      match id.inst with
      | .one i => .ok (.id (.meter ⟨.one i, id.building, dataset⟩) :: ks)
      | .many l => .ok (.tuple (l.map (fun i => Ident.meter ⟨.one i, id.building, dataset⟩)) :: ks)

/-- `MeterGroup.from_other_metergroup`, metergroup.py:446-475: `from_list` of a new empty group, whose result is not used. In
an empty group every `ElecMeterID` is a `KeyError`. -/
def fromOther (ids : List Ident) (dataset : String) : Except Err Meter :=
  match otherKeys dataset ids with
  | .error e => .error e
  | .ok keys =>
    match fromList (fun _ => .error .keyError) [] keys with
    | .error e => .error e
    | .ok _ => .ok (mkGroup [])

/-- `l[:k]`: a negative `k` counts from the end. -/
def pyTake {α : Type} (k : Int) (l : List α) : List α :=
  if 0 ≤ k then l.take k.toNat else l.take (l.length - k.natAbs)

/-- `l[k:]`. -/
def pyDrop {α : Type} (k : Int) (l : List α) : List α :=
  if 0 ≤ k then l.drop k.toNat else l.drop (l.length - k.natAbs)

/-- `MeterGroup.select_top_k`, metergroup.py:1334-1353; `sorted` is the series after `sort_values`. Simplification: the
entries of its index are the identifiers of the meters (lines 1339-1341, 1347-1348 restore them). -/
def selectTopK (special : MeterId → Except Err Meter) (ms : List Meter) (sorted : List (Ident × Option Rat)) (k : Int)
    (groupRemainder : Bool) : Except Err Meter :=
  match fromLoop special ms [] ((pyTake k sorted).map (fun p => GKey.id p.1)) with
  | .error e => .error e
  | .ok top =>
    if groupRemainder then
      match fromLoop special ms [] ((pyDrop k sorted).map (fun p => GKey.id p.1)) with
      | .error e => .error e
      | .ok rest => .ok (mkGroup (top ++ [.group "others" rest []]))
    else .ok (mkGroup top)

end Nilmtk
