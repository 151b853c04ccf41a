import Verif.Model.Py
/-!
Model of searching for meters: `Appliance.matches` (`nilmtk/appliance.py:36-149`), `ElecMeter.matches`
(`nilmtk/elecmeter.py:306-345`), `Electric.matches_appliances` (`nilmtk/electric.py:84-98`), and `matches`, `select`,
`select_using_appliances` and `__getitem__` of `MeterGroup` (`nilmtk/metergroup.py:172-401`).
-/
namespace Nilmtk

/-- A scalar in the metadata or in a search term. -/
inductive MAtom where
  | str (s : String)
  | num (i : Int)
  deriving DecidableEq, Repr

/-- A value in the metadata or in a search term. -/
inductive MVal where
  | atom (a : MAtom)
  | list (l : List MAtom)
  deriving DecidableEq, Repr

/-- A dictionary of metadata, or of search terms. Simplification: no nested dictionaries except `categories`. -/
abbrev MDict := List (String × MVal)

/-- `Appliance.appliance_types[type]`: its entries, and the values of its `categories` (`none` if it has none). -/
structure ApplType where
  attrs : MDict
  categories : Option (List MVal)
  deriving DecidableEq, Repr

/-- `Appliance`: the identifier and the metadata (which includes the identifier), appliance.py:34-52. -/
structure Appl where
  type : Option String
  inst : Option Int
  metadata : MDict
  deriving DecidableEq, Repr

/-- The settings `Appliance.appliance_types` and `Appliance.allow_synonyms`, appliance.py:23-30. -/
structure ApplTypes where
  types : List (String × ApplType)
  allowSynonyms : Bool

/-- `Appliance.type`, appliance.py:54-57. -/
def Appl.typeInfo (env : ApplTypes) (a : Appl) : Except Err ApplType :=
  match a.type with
  | none => .error .keyError
  | some t =>
    match env.types.lookup t with
    | none => .error .keyError
    | some i => .ok i

/-- `flatten_2d_list` of values, utils.py:156-168. -/
def flattenVals : List MVal → List MAtom
  | [] => []
  | .atom a :: vs => a :: flattenVals vs
  | .list l :: vs => l ++ flattenVals vs

/-- `v in values`. -/
def valIn (v : MVal) (values : List MAtom) : Bool :=
  match v with
  | .atom a => decide (a ∈ values)
  | .list _ => false

/-- Comparison of a metadata value with the value asked for: membership if only the former is a list,
appliance.py:137-143 and elecmeter.py:335-340. -/
def valMatches (md v : MVal) : Bool :=
  match md with
  | .list l =>
    match v with
    | .atom a => decide (a ∈ l)
    | .list l' => decide (l = l')
  | .atom _ => decide (md = v)

/-- The synonym test, appliance.py:118-122. `synonyms.append` of something that is no list raises. -/
def matchType (env : ApplTypes) (a : Appl) (v : MVal) : Except Err Bool :=
  match a.typeInfo env with
  | .error e => .error e
  | .ok i =>
    match i.attrs.lookup "synonyms" with
    | none => .ok (valIn v (a.type.toList.map MAtom.str))
    | some (.list l) => .ok (valIn v (l ++ a.type.toList.map MAtom.str))
    | some (.atom _) => .error .attributeError

/-- The tests against `Appliance.type`, appliance.py:130-147. -/
def matchTypeInfo (env : ApplTypes) (a : Appl) (k : String) (v : MVal) : Except Err Bool :=
  if k = "category" then
    match a.typeInfo env with
    | .error e => .error e
    | .ok i =>
      match i.categories with
      | none => .error .attributeError
      | some cs => .ok (valIn v (flattenVals cs))
  else
    match a.typeInfo env with
    | .error e => .error e
    | .ok i =>
      match i.attrs.lookup k with
      | none => .error .keyError
      | some md => .ok (valMatches md v)

/-- One search term of `Appliance.matches`, appliance.py:116-147. `hasattr(self.identifier, k)` is also true of the
methods `count` and `index` of a tuple, which equal no value (other methods, whose names begin with an underscore, are
left out). -/
def Appl.matchTerm (env : ApplTypes) (a : Appl) (k : String) (v : MVal) : Except Err Bool :=
  if k = "type" then
    if env.allowSynonyms then matchType env a v
    else .ok (decide (a.type.map (fun t => MVal.atom (.str t)) = some v))
  else if k = "instance" then .ok (decide (a.inst.map (fun i => MVal.atom (.num i)) = some v))
  else if k = "count" ∨ k = "index" then .ok false
  else
    match a.metadata.lookup k with
    | some md => .ok (decide (md = v))
    | none => matchTypeInfo env a k v

/-- `match = True; for k, v in key.items(): ...; return match`: all terms are looked at. -/
def matchAll (f : String → MVal → Except Err Bool) : MDict → Except Err Bool
  | [] => .ok true
  | (k, v) :: key =>
    match f k v with
    | .error e => .error e
    | .ok b =>
      match matchAll f key with
      | .error e => .error e
      | .ok b' => .ok (b && b')

/-- `Appliance.matches`, appliance.py:91-149. -/
def Appl.matches (env : ApplTypes) (a : Appl) (key : MDict) : Except Err Bool := matchAll (a.matchTerm env) key

/-- `ElecMeter`: the identifier, metadata, device (`none`: an unknown device model) and appliances. -/
structure SElec where
  inst : MVal
  building : Int
  dataset : String
  metadata : MDict
  device : Option MDict
  appliances : List Appl
  deriving DecidableEq, Repr

/-- One search term of `ElecMeter.matches`, elecmeter.py:325-343; for `count` and `index` see `Appl.matchTerm`. -/
def SElec.matchTerm (e : SElec) (k : String) (v : MVal) : Except Err Bool :=
  if k = "instance" then .ok (decide (e.inst = v))
  else if k = "building" then .ok (decide (MVal.atom (.num e.building) = v))
  else if k = "dataset" then .ok (decide (MVal.atom (.str e.dataset) = v))
  else if k = "count" ∨ k = "index" then .ok false
  else
    match e.metadata.lookup k with
    | some md => .ok (decide (md = v))
    | none =>
      match e.device with
      | none => .error .keyError
      | some d =>
        match d.lookup k with
        | none => .error .keyError
        | some md => .ok (valMatches md v)

/-- `ElecMeter.matches`, elecmeter.py:306-345. -/
def SElec.matches (e : SElec) (key : MDict) : Except Err Bool := matchAll e.matchTerm key

/-- A meter or a nested group. -/
inductive SMeter where
  | elec (e : SElec)
  | group (ms : List SMeter)

/-- `for x in xs: if f(x): return True` followed by `return False`. -/
def anyMatch {α : Type} (f : α → Except Err Bool) : List α → Except Err Bool
  | [] => .ok false
  | x :: xs =>
    match f x with
    | .error e => .error e
    | .ok true => .ok true
    | .ok false => anyMatch f xs

mutual
/-- `meter.matches(key)`; for a group metergroup.py:298-302. -/
def SMeter.matches (key : MDict) : SMeter → Except Err Bool
  | .elec e => e.matches key
  | .group ms => SMeter.matchesAny key ms
/-- The loop of `MeterGroup.matches`. -/
def SMeter.matchesAny (key : MDict) : List SMeter → Except Err Bool
  | [] => .ok false
  | m :: ms =>
    match m.matches key with
    | .error e => .error e
    | .ok true => .ok true
    | .ok false => SMeter.matchesAny key ms
end

/-- `set.update`: an appliance is added unless one with the same identifier is in the set. -/
def addAppls (acc : List Appl) : List Appl → List Appl
  | [] => acc
  | a :: as =>
    if acc.any (fun b => decide (b.type = a.type ∧ b.inst = a.inst)) then addAppls acc as else addAppls (acc ++ [a]) as

mutual
/-- `meter.appliances`; for a group metergroup.py:486-491. Simplification: the set is listed in order of insertion. -/
def SMeter.appliances : SMeter → List Appl
  | .elec e => e.appliances
  | .group ms => SMeter.appliancesOf [] ms
/-- The loop of `MeterGroup.appliances`. -/
def SMeter.appliancesOf (acc : List Appl) : List SMeter → List Appl
  | [] => acc
  | m :: ms => SMeter.appliancesOf (addAppls acc m.appliances) ms
end

/-- `matches_appliances`, electric.py:84-98. -/
def SMeter.matchesAppliances (env : ApplTypes) (key : MDict) (m : SMeter) : Except Err Bool :=
  anyMatch (fun a => a.matches env key) m.appliances

/-- The loop of `get`, metergroup.py:357-366: the meters that match; a `KeyError` counts as no match. -/
def keepMatching (f : SMeter → Except Err Bool) : List SMeter → Except Err (List SMeter)
  | [] => .ok []
  | m :: ms =>
    match f m with
    | .error .keyError => keepMatching f ms
    | .error e => .error e
    | .ok b =>
      match keepMatching f ms with
      | .error e => .error e
      | .ok r => .ok (if b then m :: r else r)

/-- `get`, metergroup.py:353-370. The second test is never true when the first is not. -/
def selectGet (f : SMeter → Except Err Bool) (ms : List SMeter) : Except Err (List SMeter) :=
  match keepMatching f ms with
  | .error e => .error e
  | .ok [] => .error .keyError
  | .ok r => .ok r

/-- The loop over the values of a list, metergroup.py:375-376. -/
def selectValues (f : MDict → SMeter → Except Err Bool) (k : String) (ms : List SMeter) :
    List MAtom → Except Err (List SMeter)
  | [] => .ok []
  | v :: vs =>
    match selectGet (f [(k, .atom v)]) ms with
    | .error e => .error e
    | .ok r =>
      match selectValues f k ms vs with
      | .error e => .error e
      | .ok rs => .ok (r ++ rs)

/-- `MeterGroup.select`, metergroup.py:304-380, with the function given by `func`: the meters of the new group. -/
def selectMeters (f : MDict → SMeter → Except Err Bool) (kwargs : MDict) (ms : List SMeter) : Except Err (List SMeter) :=
  match kwargs with
  | [(k, .list vs)] => selectValues f k ms vs
  | _ => selectGet (f kwargs) ms

/-- `MeterGroup.select(**kwargs)`. -/
def select (kwargs : MDict) (ms : List SMeter) : Except Err (List SMeter) := selectMeters SMeter.matches kwargs ms

/-- `MeterGroup.select_using_appliances(**kwargs)`, metergroup.py:382-401. -/
def selectUsingAppliances (env : ApplTypes) (kwargs : MDict) (ms : List SMeter) : Except Err (List SMeter) :=
  selectMeters (SMeter.matchesAppliances env) kwargs ms

/-- The loop of `__getitem__` for a dictionary, metergroup.py:258-262. -/
def collectMatching (f : SMeter → Except Err Bool) : List SMeter → Except Err (List SMeter)
  | [] => .ok []
  | m :: ms =>
    match f m with
    | .error e => .error e
    | .ok b =>
      match collectMatching f ms with
      | .error e => .error e
      | .ok r => .ok (if b then m :: r else r)

/-- `__getitem__` with a dictionary, metergroup.py:257-269; with a string `t` it is called with
`{'type': t, 'instance': 1}` (metergroup.py:206-208, 247-249). -/
def getByAppliance (env : ApplTypes) (key : MDict) (ms : List SMeter) : Except Err SMeter :=
  match collectMatching (SMeter.matchesAppliances env key) ms with
  | .error e => .error e
  | .ok [] => .error .keyError
  | .ok [m] => .ok m
  | .ok _ => .error .exception

/-- `self['fridge']`. -/
def getByType (env : ApplTypes) (t : String) (ms : List SMeter) : Except Err SMeter :=
  getByAppliance env [("type", .atom (.str t)), ("instance", .atom (.num 1))] ms

/-- The numbers in `meter.instance()` of a nested group, the tuple of the instances of its meters (metergroup.py:549-551;
the instance of a group in it is a tuple, and equals no number). -/
def directInstances : List SMeter → List MVal
  | [] => []
  | .elec e :: ms => e.inst :: directInstances ms
  | .group _ :: ms => directInstances ms

/-- The end of `__getitem__` with a number, metergroup.py:285-294. -/
def onlyOne : List SMeter → Except Err SMeter
  | [] => .error .keyError
  | [m] => .ok m
  | _ => .error .exception

mutual
/-- One step of the loop of `__getitem__` with a number, metergroup.py:273-284. -/
def SMeter.foundIn (i : Int) : SMeter → Except Err (List SMeter)
  | .elec e =>
    match e.inst with
    | .atom (.num j) => .ok (if j = i then [.elec e] else [])
    | .atom (.str _) => .ok []
    | .list l => .ok (if MAtom.num i ∈ l then [.elec e] else [])
  | .group gs =>
    if MVal.atom (.num i) ∈ directInstances gs then
      match SMeter.foundAll i gs with
      | .error e => .error e
      | .ok found =>
        match onlyOne found with
        | .error e => .error e
        | .ok m => .ok [m]
    else .ok []
/-- The loop of `__getitem__` with a number, metergroup.py:271-284. -/
def SMeter.foundAll (i : Int) : List SMeter → Except Err (List SMeter)
  | [] => .ok []
  | m :: ms =>
    match m.foundIn i with
    | .error e => .error e
    | .ok found =>
      match SMeter.foundAll i ms with
      | .error e => .error e
      | .ok r => .ok (found ++ r)
end

/-- `__getitem__` with a number, metergroup.py:270-294. -/
def getByInstance (i : Int) (ms : List SMeter) : Except Err SMeter :=
  match SMeter.foundAll i ms with
  | .error e => .error e
  | .ok found => onlyOne found

end Nilmtk
