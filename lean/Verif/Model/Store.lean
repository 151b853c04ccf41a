import Verif.Model.Key
import Verif.Model.HDF
/-!
Model of `HDFDataStore` (`nilmtk/datastore/hdfdatastore.py`) as a store that is written and read: `put`, `append`, `remove`,
`__getitem__`, `save_metadata`, `load_metadata`, `elements_below_key`, `get_timeframe`, `_nrows`.

The HDF5 file is a tree of groups. A group has the table stored at its path (pandas keeps it in a leaf called `table` inside
the group), the attribute `metadata`, and further groups. All tables have rows of one type: the check of pandas that
appended columns fit is not modelled. A frame is `empty` for pandas if it has no rows; a frame with rows but without
columns is outside the model, as are keys with a component `table`.
-/
namespace Nilmtk

/-- A group of the file. -/
inductive HGroup (M α : Type) where
  | mk (table : Option (List (Row α))) (metadata : Option M) (kids : List (Str × HGroup M α))

/-- The table stored in the group. -/
def HGroup.table {M α : Type} : HGroup M α → Option (List (Row α))
  | .mk t _ _ => t

/-- The attribute `metadata` of the group. -/
def HGroup.metadata {M α : Type} : HGroup M α → Option M
  | .mk _ m _ => m

/-- `_v_children`. -/
def HGroup.kids {M α : Type} : HGroup M α → List (Str × HGroup M α)
  | .mk _ _ ks => ks

/-- A new group. -/
def HGroup.new {M α : Type} : HGroup M α := .mk none none []

/-- The components of a key: `key.split('/')` without empty components (`HDFStore._create_nodes_and_group` of pandas); the
leading slash may be missing (`HDFStore.get_node`). -/
def hdfComponents (key : Str) : List Str := (splitSlash key).filter (fun c => !c.isEmpty)

/-- `get_node`: the group at a path. -/
def HGroup.find {M α : Type} (g : HGroup M α) : List Str → Option (HGroup M α)
  | [] => some g
  | c :: cs =>
    match g.kids.lookup c with
    | none => none
    | some k => k.find cs

/-- Replace the child called `c`, or add it. -/
def setKid {ν : Type} (c : Str) (v : ν) : List (Str × ν) → List (Str × ν)
  | [] => [(c, v)]
  | e :: es => if e.1 = c then (c, v) :: es else e :: setKid c v es

/-- Apply `f` to the group at a path; groups that do not exist are created (`_create_nodes_and_group` of pandas). -/
def HGroup.update {M α : Type} (f : HGroup M α → HGroup M α) : List Str → HGroup M α → HGroup M α
  | [], g => f g
  | c :: cs, g => .mk g.table g.metadata (setKid c (update f cs ((g.kids.lookup c).getD HGroup.new)) g.kids)

/-- `_f_remove(recursive=True)` of the group at a path; nothing happens if it does not exist. -/
def HGroup.cut {M α : Type} : List Str → HGroup M α → HGroup M α
  | [], g => g
  | [c], g => .mk g.table g.metadata (g.kids.filter (fun e => !(e.1 == c)))
  | c :: cs, g =>
    match g.kids.lookup c with
    | none => g
    | some k => .mk g.table g.metadata (setKid c (cut cs k) g.kids)

/-- `HDFDataStore.put`, hdfdatastore.py:168-173. pandas does not write an empty frame (and leaves what is there), after which
`create_table_index` raises `KeyError` if there is no such node and `TypeError` if it is not a table. Otherwise the node is
removed with all that is below it and created anew; the root cannot be removed. -/
def hdfPut {M α : Type} (g : HGroup M α) (key : Str) (df : List (Row α)) : Except Err (HGroup M α) :=
  let p := hdfComponents key
  if df = [] then
    match g.find p with
    | none => .error .keyError
    | some k => if k.table.isSome then .ok g else .error .typeError
  else if p = [] then .error .exception
  else .ok (g.update (fun _ => .mk (some df) none []) p)

/-- `HDFDataStore.append`, hdfdatastore.py:151-165; pandas ignores an empty frame. A table in the root group is outside the
model. -/
def hdfAppend {M α : Type} (g : HGroup M α) (key : Str) (df : List (Row α)) : Except Err (HGroup M α) :=
  let p := hdfComponents key
  if df = [] then .ok g
  else if p = [] then .error .exception
  else .ok (g.update (fun k => .mk (some (k.table.getD [] ++ df)) k.metadata k.kids) p)

/-- `HDFDataStore.remove`, hdfdatastore.py:175-177: the node and all that is below it. -/
def hdfRemove {M α : Type} (g : HGroup M α) (key : Str) : Except Err (HGroup M α) :=
  let p := hdfComponents key
  match g.find p with
  | none => .error .keyError
  | some _ => if p = [] then .error .exception else .ok (g.cut p)

/-- `HDFDataStore.save_metadata`, hdfdatastore.py:190-197. -/
def hdfSaveMetadata {M α : Type} (g : HGroup M α) (key : Str) (m : M) : Except Err (HGroup M α) :=
  let p := hdfComponents key
  match g.find p with
  | none => .error .attributeError
  | some _ => .ok (g.update (fun k => .mk k.table (some m) k.kids) p)

/-- `HDFDataStore.__getitem__`, hdfdatastore.py:28-29. -/
def hdfGet {M α : Type} (g : HGroup M α) (key : Str) : Except Err (List (Row α)) :=
  match g.find (hdfComponents key) with
  | none => .error .keyError
  | some k =>
    match k.table with
    | none => .error .typeError
    | some t => .ok t

/-- `HDFDataStore.load_metadata`, hdfdatastore.py:179-187. -/
def hdfGetMetadata {M α : Type} (g : HGroup M α) (key : Str) : Except Err M :=
  match g.find (hdfComponents key) with
  | none => .error .attributeError
  | some k =>
    match k.metadata with
    | none => .error .attributeError
    | some m => .ok m

/-- `HDFDataStore.elements_below_key`, hdfdatastore.py:199-205; the leaf with the rows is a child as well. -/
def hdfElements {M α : Type} (g : HGroup M α) (key : Str) : Except Err (List Str) :=
  match g.find (hdfComponents key) with
  | none => .error .attributeError
  | some k => .ok ((if k.table.isSome then ["table".toList] else []) ++ k.kids.map Prod.fst)

/-- `HDFDataStore.get_timeframe`, hdfdatastore.py:215-226: `select(key, [0])` is the first row, `select(key, start=-1)` the
last one. -/
def hdfTimeframe {M α : Type} (g : HGroup M α) (window : TF) (key : Str) : Except Err TF :=
  match hdfGet g key with
  | .error e => .error e
  | .ok rows =>
    match rows.head?, rows.getLast? with
    | some a, some b =>
      match TF.ctor (some a.1) (some b.1) with
      | .error e => .error e
      | .ok tf => .ok (window.intersection tf)
    | _, _ => .error .indexError

/-- `HDFDataStore._nrows`, hdfdatastore.py:284-300. In Python 3 a TimeFrame is always true (`__nonzero__` is not looked at), so
that the `else` branch is never taken; without terms all positions are returned. -/
def hdfNrows {M α : Type} (g : HGroup M α) (window : TF) (key : Str) (tf : Option TF) : Except Err Nat :=
  let w := window.intersectionOpt tf
  if w.empty then .ok 0
  else
    match w.queryTerms with
    | .error e => .error e
    | .ok terms =>
      match hdfGet g key with
      | .error e => .error e
      | .ok rows =>
        match terms with
        | none => .ok rows.length
        | some ts => .ok (coordinates ts rows).length

/-- A call that writes. -/
inductive HCall (M α : Type) where
  | put (key : Str) (df : List (Row α))
  | append (key : Str) (df : List (Row α))
  | remove (key : Str)
  | saveMetadata (key : Str) (m : M)

/-- One call. -/
def hdfCall {M α : Type} (g : HGroup M α) : HCall M α → Except Err (HGroup M α)
  | .put key df => hdfPut g key df
  | .append key df => hdfAppend g key df
  | .remove key => hdfRemove g key
  | .saveMetadata key m => hdfSaveMetadata g key m

/-- A history of calls, one after another; a call that raises leaves the file as it is and the caller goes on. -/
def hdfRun {M α : Type} : List (HCall M α) → HGroup M α → HGroup M α
  | [], g => g
  | c :: cs, g =>
    match hdfCall g c with
    | .error _ => hdfRun cs g
    | .ok g' => hdfRun cs g'

end Nilmtk
