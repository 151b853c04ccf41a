import Verif.Model.LegacyDisag
/-!
Model of `export_model` and `import_model` of the legacy disaggregators: `CombinatorialOptimisation`
(`nilmtk/legacy/disaggregate/combinatorial_optimisation.py:245-275`), `FHMM`
(`nilmtk/legacy/disaggregate/fhmm_exact.py:551-590`) and `Hart85` (`nilmtk/legacy/disaggregate/hart_85.py:513-527`).

Meters are objects in a heap, which the disaggregator refers to, because exporting changes the `store` of meters that others
use too. `pickle` writes the objects that can be reached, with their identities, and creates new objects when loading. Whether
opening a file for writing works, whether pickling fails for other reasons, and whether a store can be opened, are inputs.
-/
namespace Nilmtk

/-- The attribute `store` of a meter: an `HDFDataStore` on a file, a file name, or something without `.store.filename` (a
`CSVDataStore`, `None`, or no such attribute at all, as for a `MeterGroup`). -/
inductive StoreRef where
  | hdf (file : String)
  | text (file : String)
  | other (id : Nat)
  deriving DecidableEq, Repr

/-- A data store cannot be pickled. -/
def StoreRef.pickles : StoreRef → Bool
  | .hdf _ => false
  | .text _ => true
  | .other _ => true

/-- An `ElecMeter` object. -/
structure MeterObj where
  meter : SubMeter
  store : StoreRef
  deriving DecidableEq, Repr

/-- The objects of a process: those with a number below `next` exist. -/
structure ObjHeap where
  next : Nat
  obj : Nat → MeterObj

/-- `meter.store = ...`. -/
def ObjHeap.setStore (h : ObjHeap) (id : Nat) (s : StoreRef) : ObjHeap :=
  { h with obj := fun i => if i = id then { h.obj i with store := s } else h.obj i }

/-- What a file contains: a pickle with the objects it refers to, or anything else. -/
inductive FileBody (α : Type) where
  | pickle (value : α) (objs : ObjHeap)
  | junk

/-- The files. -/
abbrev Disk (α : Type) := String → Option (FileBody α)

/-- The loop that replaces stores by file names, combinatorial_optimisation.py:262-266 and fhmm_exact.py:576-579: the heap, and
`original_stores` if no exception is raised. -/
def detachStores : List Nat → ObjHeap → ObjHeap × Except Err (List StoreRef)
  | [], h => (h, .ok [])
  | id :: ids, h =>
    match (h.obj id).store with
    | .hdf file =>
      match detachStores ids (h.setStore id (.text file)) with
      | (h', .error e) => (h', .error e)
      | (h', .ok originals) => (h', .ok (.hdf file :: originals))
    | .text _ => (h, .error .attributeError)
    | .other _ => (h, .error .attributeError)

/-- The loop of `finally`, combinatorial_optimisation.py:273-274 and fhmm_exact.py:586-587. -/
def attachStores : List (StoreRef × Nat) → ObjHeap → ObjHeap
  | [], h => h
  | (s, id) :: rest, h => attachStores rest (h.setStore id s)

/-- How writing goes: `open` raises, `pickle.dump` raises for a reason of its own, or neither. -/
inductive Writing where
  | openFails (e : Err)
  | dumpFails (e : Err)
  | works

/-- `with open(filename, 'wb') as out_file: pickle.dump(self, out_file)`, combinatorial_optimisation.py:269-270 and
fhmm_exact.py:582-583. A data store cannot be pickled. Opening empties the file. -/
def writePickle {α : Type} (w : Writing) (disk : Disk α) (file : String) (value : α) (ids : List Nat) (h : ObjHeap) :
    Disk α × Except Err Unit :=
  match w with
  | .openFails e => (disk, .error e)
  | .dumpFails e => (fun f => if f = file then some .junk else disk f, .error e)
  | .works =>
    if ids.all (fun id => (h.obj id).store.pickles) then
      (fun f => if f = file then some (.pickle value h) else disk f, .ok ())
    else (fun f => if f = file then some .junk else disk f, .error .typeError)

/-- `open(filename, 'rb')` and `pickle.load`: the value, the number added to every reference in it, and the heap with the new
objects. -/
def readPickle {α : Type} (disk : Disk α) (file : String) (h : ObjHeap) : Except Err (α × Nat × ObjHeap) :=
  match disk file with
  | none => .error .fileNotFound
  | some .junk => .error .exception
  | some (.pickle v objs) =>
    .ok (v, h.next, ⟨h.next + objs.next, fun i => if i < h.next then h.obj i else objs.obj (i - h.next)⟩)

/-- The loop that opens the stores again, combinatorial_optimisation.py:252-254 and fhmm_exact.py:560-562. `opens` is the
exception of `HDFDataStore(filename)`, if there is one; for something that is not a file name it is a `TypeError`. -/
def reopenStores (opens : String → Option Err) : List Nat → ObjHeap → ObjHeap × Except Err Unit
  | [], h => (h, .ok ())
  | id :: ids, h =>
    match (h.obj id).store with
    | .text file =>
      match opens file with
      | some e => (h, .error e)
      | none => reopenStores opens ids (h.setStore id (.hdf file))
    | .hdf _ => (h, .error .typeError)
    | .other _ => (h, .error .typeError)

/-! ### CombinatorialOptimisation -/

/-- A `CombinatorialOptimisation` object that refers to meters in a heap. -/
structure CoRefs where
  model : List (Nat × List Int)
  table : Option Combinations
  minChunkLength : Nat
  deriving DecidableEq, Repr

/-- The object of `Model/LegacyDisag.lean`: with the meters that the references stand for. -/
def CoRefs.look (c : CoRefs) (h : ObjHeap) : LegacyCO :=
  ⟨c.model.map (fun e => ((h.obj e.1).meter, e.2)), c.table, c.minChunkLength⟩

/-- `export_model`, combinatorial_optimisation.py:259-275. -/
def CoRefs.exportModel (w : Writing) (c : CoRefs) (file : String) (h : ObjHeap) (disk : Disk CoRefs) :
    (ObjHeap × Disk CoRefs) × Except Err Unit :=
  match detachStores (c.model.map Prod.fst) h with
  | (h', .error e) => ((h', disk), .error e)
  | (h', .ok originals) =>
    let r := writePickle w disk file c (c.model.map Prod.fst) h'
    ((attachStores (List.zip originals (c.model.map Prod.fst)) h', r.1), r.2)

/-- `import_model`, combinatorial_optimisation.py:245-257. -/
def CoRefs.importModel (opens : String → Option Err) (c : CoRefs) (file : String) (h : ObjHeap) (disk : Disk CoRefs) :
    (CoRefs × ObjHeap) × Except Err Unit :=
  match readPickle disk file h with
  | .error e => ((c, h), .error e)
  | .ok (v, off, h1) =>
    let model := v.model.map (fun e => (off + e.1, e.2))
    match reopenStores opens (model.map Prod.fst) h1 with
    | (h2, .error e) => (({ c with model := model }, h2), .error e)
    | (h2, .ok ()) => ((⟨model, v.table, v.minChunkLength⟩, h2), .ok ())

/-! ### FHMM -/

/-- What training gives an `FHMM` object: `model` (the combined model), `individual` (a dictionary, from meters to models) and
`meters` (`none` is `None`). -/
structure FhmmTrained (γ : Type) where
  model : γ
  individual : List (Nat × γ)
  meters : Option (List Nat)
  deriving DecidableEq, Repr

/-- An `FHMM` object: before training there are no attributes `individual` and `meters`. -/
abbrev FhmmRefs (γ : Type) := Option (FhmmTrained γ)

/-- `export_model`, fhmm_exact.py:569-590; it sets `self.meters` to `None` first. -/
def FhmmRefs.exportModel {γ : Type} (w : Writing) (c : FhmmRefs γ) (file : String) (h : ObjHeap)
    (disk : Disk (FhmmTrained γ)) : (FhmmRefs γ × ObjHeap × Disk (FhmmTrained γ)) × Except Err Unit :=
  match c with
  | none => ((none, h, disk), .error .attributeError)
  | some t =>
    let bare : FhmmTrained γ := { t with meters := none }
    match detachStores (t.individual.map Prod.fst) h with
    | (h', .error e) => ((some bare, h', disk), .error e)
    | (h', .ok originals) =>
      let r := writePickle w disk file bare (t.individual.map Prod.fst) h'
      ((some { bare with meters := t.meters }, attachStores (List.zip originals (t.individual.map Prod.fst)) h', r.1), r.2)

/-- `import_model`, fhmm_exact.py:551-566: if a store cannot be opened, `meters` stays what it was (`none` also stands for no
such attribute). -/
def FhmmRefs.importModel {γ : Type} (opens : String → Option Err) (c : FhmmRefs γ) (file : String) (h : ObjHeap)
    (disk : Disk (FhmmTrained γ)) : (FhmmRefs γ × ObjHeap) × Except Err Unit :=
  match readPickle disk file h with
  | .error e => ((c, h), .error e)
  | .ok (v, off, h1) =>
    let individual := v.individual.map (fun e => (off + e.1, e.2))
    match reopenStores opens (individual.map Prod.fst) h1 with
    | (h2, .error e) => ((some ⟨v.model, individual, c.bind FhmmTrained.meters⟩, h2), .error e)
    | (h2, .ok ()) => ((some ⟨v.model, individual, some (individual.map Prod.fst)⟩, h2), .ok ())

/-! ### Hart85 -/

/-- A `Hart85` object: the dictionary `model`, and the attributes that training sets. -/
structure HartRefs (ν : Type) where
  model : List (String × ν)
  attrs : List (String × ν)
  deriving DecidableEq, Repr

/-- The keys that `import_model` reads in this order, hart_85.py:521-527. -/
def hartKeys : List String := ["columns", "state_threshold", "noise_level", "steady_states", "transients", "centroids"]

/-- The end of `train`, hart_85.py:234-257: the attributes, with `pair_df` among them, and the dictionary. -/
def HartRefs.trained {ν : Type} (columns threshold noise steady transients pairs centroids : ν) : HartRefs ν :=
  ⟨[("columns", columns), ("state_threshold", threshold), ("noise_level", noise), ("steady_states", steady),
    ("transients", transients), ("centroids", centroids)],
   [("columns", columns), ("state_threshold", threshold), ("noise_level", noise), ("steady_states", steady),
    ("transients", transients), ("pair_df", pairs), ("centroids", centroids)]⟩

/-- `export_model`, hart_85.py:513-516. -/
def HartRefs.exportModel {ν : Type} (w : Writing) (c : HartRefs ν) (file : String) (h : ObjHeap)
    (disk : Disk (List (String × ν))) : Disk (List (String × ν)) × Except Err Unit :=
  writePickle w disk file c.model [] h

/-- The assignments of `import_model`, hart_85.py:521-527. -/
def hartImportLoop {ν : Type} : List String → HartRefs ν → HartRefs ν × Except Err Unit
  | [], c => (c, .ok ())
  | k :: ks, c =>
    match c.model.lookup k with
    | none => (c, .error .keyError)
    | some v => hartImportLoop ks { c with attrs := orderedSet c.attrs k v }

/-- `import_model`, hart_85.py:518-527. -/
def HartRefs.importModel {ν : Type} (c : HartRefs ν) (file : String) (h : ObjHeap) (disk : Disk (List (String × ν))) :
    HartRefs ν × Except Err Unit :=
  match readPickle disk file h with
  | .error e => (c, .error e)
  | .ok (v, _, _) => hartImportLoop hartKeys { c with model := v }

end Nilmtk
