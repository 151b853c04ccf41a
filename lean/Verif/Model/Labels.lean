import Verif.Model.Key
import Mathlib.Data.List.Dedup
/-!
Model of the labels of appliances, meters and groups of meters: `Appliance.label`, `ElecMeter.label`, `MeterGroup.label` and
`MeterGroup.get_labels`.

Upper and lower case are those of ASCII letters. The texts are printable: `repr` escapes only quotes, backslashes, tabs and ends of lines.
The order in which Python lists a set of texts is an input. The numbers of instances are natural numbers.
-/
namespace Nilmtk

/-- `", ".join(parts)`. -/
def joinComma : List Str → Str
  | [] => []
  | [p] => p
  | p :: q :: ps => p ++ ", ".toList ++ joinComma (q :: ps)

/-- The quote that `repr` chooses for a text. -/
def reprQuote (s : Str) : Char := if '\'' ∈ s ∧ '"' ∉ s then '"' else '\''

/-- The characters of a text as `repr` writes them. -/
def reprChar (q c : Char) : Str :=
  if c = '\n' then ['\\', 'n']
  else if c = '\r' then ['\\', 'r']
  else if c = '\t' then ['\\', 't']
  else if c = '\\' ∨ c = q then ['\\', c]
  else [c]

/-- `repr(s)`. -/
def reprText (s : Str) : Str := reprQuote s :: (s.flatMap (reprChar (reprQuote s)) ++ [reprQuote s])

/-- An appliance: type and instance of its identifier, whether `dominant_appliance` is set, and `original_name`. -/
structure LabAppl where
  type : Str
  inst : Nat
  dominant : Bool
  original : Option Str
  deriving DecidableEq

/-- The end of the label of an appliance of unknown type, appliance.py:85-87. -/
def LabAppl.ending (a : LabAppl) : Str :=
  if a.type = "unknown".toList then ", original name = ".toList ++ a.original.getD "None".toList else []

/-- `Appliance.label(pretty=False)`, appliance.py:82-88. -/
def LabAppl.label (a : LabAppl) : Str :=
  ("(".toList ++ reprText a.type ++ ", ".toList ++ formatNat a.inst ++ ")".toList) ++ a.ending

/-- `str.capitalize`. -/
def capitalizeText : Str → Str
  | [] => []
  | c :: cs => c.toUpper :: cs.map Char.toLower

/-- `Appliance.label(pretty=True)`, appliance.py:77-81, 85-88. -/
def LabAppl.prettyLabel (a : LabAppl) : Str :=
  (capitalizeText a.type ++ (if a.inst > 1 then ' ' :: formatNat a.inst else [])) ++ a.ending

/-- `capitalise_first_letter`, utils.py:370-371. -/
def capitaliseFirst : Str → Except Err Str
  | [] => .error .indexError
  | c :: cs => .ok (c.toUpper :: cs)

/-- An `ElecMeter`: `metadata['name']` (`none` if the key is missing, `some none` if the value is null), whether it is a site meter, and its
appliances. -/
structure LabMeter where
  name : Option (Option Str)
  site : Bool
  appliances : List LabAppl
  deriving DecidableEq

/-- `ElecMeter.dominant_appliance`, elecmeter.py:174-191. -/
def LabMeter.dominant (m : LabMeter) : Option LabAppl :=
  match m.appliances with
  | [] => none
  | [a] => some a
  | a :: as =>
    match (a :: as).find? (fun b => b.dominant) with
    | some b => some b
    | none => some a

/-- The labels of the appliances of a meter, elecmeter.py:216-220, 234-238. -/
def LabMeter.applianceNames (m : LabMeter) : List Str :=
  m.appliances.map (fun a => if a.dominant then a.label.map Char.toUpper else a.label)

/-- `ElecMeter.label(pretty=False)`, elecmeter.py:210-222. -/
def LabMeter.longLabel (m : LabMeter) : Except Err Str :=
  if m.site then .ok "SITE METER".toList
  else
    match m.name with
    | some none => .error .typeError
    | some (some n) => .ok n
    | none => .ok (joinComma m.applianceNames)

/-- `ElecMeter._pretty_label`, elecmeter.py:224-243. -/
def LabMeter.prettyLabel (m : LabMeter) : Except Err Str :=
  match m.name with
  | some (some (c :: cs)) => capitaliseFirst (c :: cs)
  | _ =>
    if m.site then capitaliseFirst "Site meter".toList
    else
      match m.dominant with
      | some a => capitaliseFirst a.type
      | none => .ok (joinComma m.applianceNames)

/-- `ElecMeter.label(pretty)`, elecmeter.py:193-208; `none` if the argument is not given. -/
def LabMeter.label (m : LabMeter) (pretty : Option Bool) : Except Err Str :=
  if pretty.getD true then m.prettyLabel else m.longLabel

/-- A meter or a group of meters with its `name`. -/
inductive LabNode where
  | meter (m : LabMeter)
  | group (name : Option Str) (meters : List LabNode)

mutual
/-- `meter.label(**kwargs)`; for a group metergroup.py:1661-1672. `order` lists the elements of a set. -/
def LabNode.label (order : List Str → List Str) (pretty : Option Bool) : LabNode → Except Err Str
  | .meter m => m.label pretty
  | .group (some (c :: cs)) _ => if pretty = some true then capitaliseFirst (c :: cs) else .ok (c :: cs)
  | .group _ ms =>
    match LabNode.labels order pretty ms with
    | .error e => .error e
    | .ok ls => .ok (joinComma (order ls.dedup))
/-- `[meter.label(**kwargs) for meter in meters]`, metergroup.py:536, 1672. -/
def LabNode.labels (order : List Str → List Str) (pretty : Option Bool) : List LabNode → Except Err (List Str)
  | [] => .ok []
  | m :: ms =>
    match LabNode.label order pretty m with
    | .error e => .error e
    | .ok l =>
      match LabNode.labels order pretty ms with
      | .error e => .error e
      | .ok ls => .ok (l :: ls)
end

/-- `[self[meter_id] for meter_id in meter_ids]`, metergroup.py:535; `find` is `__getitem__`. -/
def findAll {ι : Type} (find : ι → Except Err LabNode) : List ι → Except Err (List LabNode)
  | [] => .ok []
  | i :: is =>
    match find i with
    | .error e => .error e
    | .ok m =>
      match findAll find is with
      | .error e => .error e
      | .ok ms => .ok (m :: ms)

/-- `MeterGroup.get_labels`, metergroup.py:524-537. -/
def getLabels {ι : Type} (order : List Str → List Str) (find : ι → Except Err LabNode) (ids : List ι) (pretty : Bool) : Except Err (List Str) :=
  match findAll find ids with
  | .error e => .error e
  | .ok ms => LabNode.labels order (some pretty) ms

end Nilmtk
