import Verif.Model.Py
import Verif.Model.TimeFrame
/-!
Model of the set-like part of `nilmtk/metergroup.py`: construction, hashing, equality, `union`, `mains`, `submeters`,
`use_alternative_mains`, `building`, `get_timeframe`, `identifier`, `replace_dataset` and look-up by identifier.
-/
namespace Nilmtk

/-- The `instance` field of an `ElecMeterID`: a number, or a tuple of numbers (docstring metergroup.py:190). -/
inductive Inst where
  | one (i : Int)
  | many (is : List Int)
  deriving DecidableEq, Repr

/-- `ElecMeterID`, elecmeter.py:18. -/
structure MeterId where
  inst : Inst
  building : Int
  dataset : String
  deriving DecidableEq, Repr

/-- `ElecMeter`, elecmeter.py:50-63, as seen by its group: the identifier, `metadata['site_meter']` (elecmeter.py:171-172)
and the time frame of its data (elecmeter.py:92-94). Simplification: the identifier is never `None`. -/
structure Elec where
  id : MeterId
  site : Bool
  frame : TF
  deriving DecidableEq, Repr

/-- An element of `MeterGroup.meters`: an `ElecMeter` or a nested `MeterGroup` (name, meters, disabled meters),
metergroup.py:54-57. -/
inductive Meter where
  | elec (e : Elec)
  | group (name : String) (meters disabled : List Meter)

/-- `MeterGroup(meters=ms)`, metergroup.py:54-57. -/
def mkGroup (ms : List Meter) : Meter := .group "" ms []

/-- What is hashed: an `ElecMeterID` (hashable.py:16-17), or the tuple of a group's name, meters and disabled meters
(metergroup.py:59-64), whose hash is made of the hashes of its parts. Simplification: no collisions, two hashes are
equal when the hashed values are. -/
inductive HKey where
  | meter (id : MeterId)
  | group (name : String) (meters disabled : List HKey)

mutual
/-- `MeterGroup.__hash__`, metergroup.py:59-64, and `Hashable.__hash__`, hashable.py:16-17. -/
def Meter.hashKey : Meter → HKey
  | .elec e => .meter e.id
  | .group n ms ds => .group n (Meter.hashKeys ms) (Meter.hashKeys ds)
/-- The hashes of the elements of a tuple. -/
def Meter.hashKeys : List Meter → List HKey
  | [] => []
  | m :: ms => m.hashKey :: Meter.hashKeys ms
end

mutual
/-- Comparison of two hashes. -/
def HKey.beq : HKey → HKey → Bool
  | .meter a, .meter b => decide (a = b)
  | .group n ms ds, .group n' ms' ds' => decide (n = n') && HKey.beqs ms ms' && HKey.beqs ds ds'
  | _, _ => false
/-- Comparison of two tuples of hashes. -/
def HKey.beqs : List HKey → List HKey → Bool
  | [], [] => true
  | a :: as, b :: bs => HKey.beq a b && HKey.beqs as bs
  | _, _ => false
end

/-- `hash(a) == hash(b)`. -/
def sameHash (a b : Meter) : Bool := HKey.beq a.hashKey b.hashKey

mutual
/-- `MeterGroup.__eq__`, metergroup.py:477-481, and `Hashable.__eq__`, hashable.py:6-10. `set(other.meters) ==
set(self.meters)` is mutual inclusion; an element is found in a Python set when an element of the set has the same hash
and compares equal. -/
def Meter.pyEq : Meter → Meter → Bool
  | .elec a, .elec b => decide (a.id = b.id)
  | .group _ ms _, .group _ ns _ => Meter.allIn ms ns && ns.all (fun y => Meter.anyIs ms y)
  | _, _ => false
/-- Every meter of the first list is in the set made of the second. -/
def Meter.allIn : List Meter → List Meter → Bool
  | [], _ => true
  | x :: xs, ns => ns.any (fun y => sameHash x y && x.pyEq y) && Meter.allIn xs ns
/-- The second argument is in the set made of the list. -/
def Meter.anyIs : List Meter → Meter → Bool
  | [], _ => false
  | x :: xs, y => (sameHash x y && x.pyEq y) || Meter.anyIs xs y
end

/-- `set(xs)` in the order of insertion, starting from the set `acc`: an element is added unless it is already found. -/
def pySetFrom (acc : List Meter) : List Meter → List Meter
  | [] => acc
  | x :: xs => if acc.any (fun y => sameHash x y && x.pyEq y) then pySetFrom acc xs else pySetFrom (acc ++ [x]) xs

/-- `MeterGroup.union`, metergroup.py:138-147: `MeterGroup(set(self.meters).union(other.meters))`; the disabled meters
are dropped. `order` is the order in which Python lists the set. -/
def groupUnion (order : List Meter → List Meter) (a b : Meter) : Except Err Meter :=
  match a, b with
  | .group _ ms _, .group _ ns _ => .ok (mkGroup (order (pySetFrom [] (ms ++ ns))))
  | _, .elec _ => .error .typeError
  | .elec _, _ => .error .attributeError

mutual
/-- `is_site_meter`, metergroup.py:838-840 and elecmeter.py:171-172. -/
def Meter.isSite : Meter → Bool
  | .elec e => e.site
  | .group _ ms _ => Meter.anySite ms
/-- `any([meter.is_site_meter() for meter in meters])`. -/
def Meter.anySite : List Meter → Bool
  | [] => false
  | m :: ms => m.isSite || Meter.anySite ms
end

/-- The result of `building()`: `None`, one building, or the tuple of several. -/
inductive Bld where
  | none
  | one (b : Int)
  | many (bs : List Bld)

mutual
/-- Comparison of two results of `building()`. -/
def Bld.beq : Bld → Bld → Bool
  | .none, .none => true
  | .one a, .one b => decide (a = b)
  | .many as, .many bs => Bld.beqs as bs
  | _, _ => false
/-- Comparison of two tuples of buildings. -/
def Bld.beqs : List Bld → List Bld → Bool
  | [], [] => true
  | a :: as, b :: bs => Bld.beq a b && Bld.beqs as bs
  | _, _ => false
end

/-- `set(buildings)` in order of insertion. -/
def bldSetFrom (acc : List Bld) : List Bld → List Bld
  | [] => acc
  | x :: xs => if acc.any (fun y => Bld.beq x y) then bldSetFrom acc xs else bldSetFrom (acc ++ [x]) xs

/-- `simplest_type_for`, utils.py:146-153. -/
def simplestTypeFor : List Bld → Bld
  | [] => .none
  | [b] => b
  | bs => .many bs

mutual
/-- `building()`, metergroup.py:553-556 and elecmeter.py:72-73. Simplification: a set of buildings is listed in order of
insertion. -/
def Meter.building : Meter → Bld
  | .elec e => .one e.id.building
  | .group _ ms _ => simplestTypeFor (bldSetFrom [] (Meter.buildings ms))
/-- `[meter.building() for meter in meters]`. -/
def Meter.buildings : List Meter → List Bld
  | [] => []
  | m :: ms => m.building :: Meter.buildings ms
end

/-- `contains_meters_from_multiple_buildings`, metergroup.py:558-567: `len` of a number or of `None` raises
`TypeError`. -/
def multipleBuildings (m : Meter) : Bool :=
  match m.building with
  | .many bs => decide (bs.length > 1)
  | _ => false

/-- `MeterGroup.mains`, metergroup.py:777-796, of the group with these meters. -/
def mains (ms : List Meter) : Except Err (Option Meter) :=
  if multipleBuildings (mkGroup ms) then .error .runtimeError
  else
    match ms.filter (fun m => m.isSite) with
    | [] => .ok none
    | [m] => .ok (some m)
    | site => .ok (some (mkGroup site))

/-- `MeterGroup.submeters`, metergroup.py:832-836: the meters of the new group. -/
def submeters (ms : List Meter) : List Meter := ms.filter (fun m => !m.isSite)

/-- `list.remove(x)`: removes the first element equal to `x`, `ValueError` if there is none. -/
def pyRemove (x : Meter) : List Meter → Except Err (List Meter)
  | [] => .error .valueError
  | y :: ys =>
    if y.pyEq x then .ok ys
    else
      match pyRemove x ys with
      | .error e => .error e
      | .ok r => .ok (y :: r)

/-- The loops at metergroup.py:807-809 and 810-812: each meter of `moving` is removed from one list and appended to the
other. -/
def moveMeters (moving : List Meter) (src dst : List Meter) : Except Err (List Meter × List Meter) :=
  match moving with
  | [] => .ok (src, dst)
  | m :: rest =>
    match pyRemove m src with
    | .error e => .error e
    | .ok src' => moveMeters rest src' (dst ++ [m])

/-- `MeterGroup.use_alternative_mains`, metergroup.py:798-812: the new `meters` and `disabled_meters`. -/
def useAlternativeMains (ms ds : List Meter) : Except Err (List Meter × List Meter) :=
  let present := ms.filter (fun m => m.isSite)
  let alternative := ds.filter (fun m => m.isSite)
  if alternative = [] then .error .runtimeError
  else
    match moveMeters present ms ds with
    | .error e => .error e
    | .ok (ms1, ds1) =>
      match moveMeters alternative ds1 ms1 with
      | .error e => .error e
      | .ok (ds2, ms2) => .ok (ms2, ds2)

/-- One step of the loop of `get_timeframe`, metergroup.py:1383-1389: `acc` is `timeframe`, `f` is
`meter.get_timeframe()`; `None.empty` raises `AttributeError`. -/
def timeframeStep (acc f : Option TF) : Except Err (Option TF) :=
  match acc with
  | none => .ok f
  | some t =>
    match f with
    | none => .error .attributeError
    | some g =>
      if g.empty then .ok (some t)
      else
        match t.union g with
        | .error e => .error e
        | .ok u => .ok (some u)

mutual
/-- `get_timeframe`, metergroup.py:1375-1390 and elecmeter.py:92-94; `none` is `None` (a group without meters). -/
def Meter.getTimeframe : Meter → Except Err (Option TF)
  | .elec e => .ok (some e.frame)
  | .group _ ms _ => Meter.timeframeLoop none ms
/-- The loop of `get_timeframe`, metergroup.py:1383-1389. -/
def Meter.timeframeLoop (acc : Option TF) : List Meter → Except Err (Option TF)
  | [] => .ok acc
  | m :: ms =>
    match m.getTimeframe with
    | .error e => .error e
    | .ok f =>
      match timeframeStep acc f with
      | .error e => .error e
      | .ok acc' => Meter.timeframeLoop acc' ms
end

/-- `identifier`: an `ElecMeterID`, or a `MeterGroupID` (metergroup.py:544-547). -/
inductive Ident where
  | meter (id : MeterId)
  | group (ids : List Ident)

mutual
/-- `meter.identifier`, metergroup.py:544-547 and elecmeter.py:57. -/
def Meter.ident : Meter → Ident
  | .elec e => .meter e.id
  | .group _ ms _ => .group (Meter.idents ms)
/-- `[meter.identifier for meter in meters]`. -/
def Meter.idents : List Meter → List Ident
  | [] => []
  | m :: ms => m.ident :: Meter.idents ms
end

mutual
/-- `replace_dataset`, metergroup.py:1727-1745. -/
def Ident.replaceDataset (ds : String) : Ident → Ident
  | .meter id => .meter { id with dataset := ds }
  | .group ids => .group (Ident.replaceDatasets ds ids)
/-- `[replace_dataset(id, dataset) for id in ids]`. -/
def Ident.replaceDatasets (ds : String) : List Ident → List Ident
  | [] => []
  | i :: is => Ident.replaceDataset ds i :: Ident.replaceDatasets ds is
end

mutual
/-- Equality of identifiers (named tuples). -/
def Ident.beq : Ident → Ident → Bool
  | .meter a, .meter b => decide (a = b)
  | .group as, .group bs => Ident.beqs as bs
  | _, _ => false
/-- Equality of tuples of identifiers. -/
def Ident.beqs : List Ident → List Ident → Bool
  | [], [] => true
  | a :: as, b :: bs => Ident.beq a b && Ident.beqs as bs
  | _, _ => false
end

/-- `set(as) == set(bs)` for identifiers. -/
def identSetEq (as bs : List Ident) : Bool :=
  as.all (fun a => bs.any (fun b => Ident.beq a b)) && bs.all (fun b => as.any (fun a => Ident.beq a b))

/-- The loop `for group in self.nested_metergroups()` of metergroup.py:232-236. -/
def findGroup (ids : List Ident) : List Meter → Except Err Meter
  | [] => .error .keyError
  | .elec _ :: ms => findGroup ids ms
  | .group n gs ds :: ms => if identSetEq (Meter.idents gs) ids then .ok (.group n gs ds) else findGroup ids ms

/-- The loop `for meter in self.meters: if meter.identifier == key` of metergroup.py:227-230. -/
def findMeter (id : MeterId) : List Meter → Except Err Meter
  | [] => .error .keyError
  | m :: ms => if Ident.beq m.ident (.meter id) then .ok m else findMeter id ms

/-- `MeterGroup.__getitem__` with an `ElecMeterID` whose instance is a non-zero number (metergroup.py:227-230) or a
`MeterGroupID` (metergroup.py:231-236). Not modelled: instance 0 (the mains of a building) and tuple instances, for
which `none` is returned. -/
def getItem (ms : List Meter) (key : Ident) : Option (Except Err Meter) :=
  match key with
  | .meter id => if id.inst = .one 0 then none else
      match id.inst with
      | .one _ => some (findMeter id ms)
      | .many _ => none
  | .group ids => some (findGroup ids ms)

/-- The loop of `iterate_through_submeters_of_two_metergroups`, metergroup.py:1758-1763, over the submeters of the
master. `none`: a key that is not modelled. -/
def pairLoop (slave : List Meter) (dataset : String) : List Meter → Option (Except Err (List (Meter × Meter)))
  | [] => some (.ok [])
  | m :: ms =>
    match getItem slave (Ident.replaceDataset dataset m.ident) with
    | none => none
    | some (.error e) => some (.error e)
    | some (.ok s) =>
      match pairLoop slave dataset ms with
      | none => none
      | some (.error e) => some (.error e)
      | some (.ok r) => some (.ok ((m, s) :: r))

/-- `iterate_through_submeters_of_two_metergroups`, metergroup.py:1748-1763; `dataset` is `slave.dataset()`. -/
def pairSubmeters (master slave : List Meter) (dataset : String) : Option (Except Err (List (Meter × Meter))) :=
  pairLoop slave dataset (submeters master)

end Nilmtk
