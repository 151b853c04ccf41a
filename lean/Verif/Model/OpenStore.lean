import Verif.Model.Store
import Verif.Model.CsvStore
/-!
Model of `get_datastore` (`nilmtk/utils.py:303-329`), of the constructors of the two data stores, and of what `DataSet.__init__` opens.

A disk has files of HDF5 and directories of CSV files, by name; names within a directory of CSV files, other kinds of files, and permissions are not
modelled.
-/
namespace Nilmtk

/-- The modes that the documentation of `get_datastore` names, utils.py:309. -/
inductive OpenMode where
  | read
  | append
  | write
  deriving DecidableEq, Repr

/-- What a name can stand for. -/
inductive DiskNode (M V α : Type) where
  | file (g : HGroup M α)
  | directory (d : CsvDisk V α)

/-- A disk. -/
abbrev DiskWorld (M V α : Type) := Str → Option (DiskNode M V α)

/-- The disk with another node at a name. -/
def DiskWorld.set {M V α : Type} (w : DiskWorld M V α) (f : Str) (n : DiskNode M V α) : DiskWorld M V α := fun g => if g = f then some n else w g

/-- Exceptions of opening; `osError` is `OSError` (in Python 3 the same as `IOError`) or one of its subclasses. -/
inductive OpenErr where
  | attributeError
  | valueError
  | osError
  deriving DecidableEq, Repr

/-- An open store. -/
inductive Opened where
  | hdf (f : Str) (mode : OpenMode)
  | csv (f : Str)
  deriving DecidableEq, Repr

/-- `HDFDataStore.__init__`, hdfdatastore.py:16-25. `HDFStore` with mode `'w'` makes an empty file in the place of what there is, unless it is a directory. -/
def openHdf {M V α : Type} (w : DiskWorld M V α) (f : Str) (mode : OpenMode) : DiskWorld M V α × Except OpenErr (Option Opened) :=
  match mode with
  | .write =>
    match w f with
    | some (.directory _) => (w, .error .osError)
    | _ => (w.set f (.file .new), .ok (some (.hdf f .write)))
  | m =>
    match w f with
    | some (.file _) => (w, .ok (some (.hdf f m)))
    | _ => (w, .error .osError)

/-- `CSVDataStore.__init__`, csvdatastore.py:24-35: directories that do not exist are made; `metadata` cannot be made in a file. -/
def openCsv {M V α : Type} (w : DiskWorld M V α) (f : Str) : DiskWorld M V α × Except OpenErr (Option Opened) :=
  match w f with
  | none => (w.set f (.directory .fresh), .ok (some (.csv f)))
  | some (.directory _) => (w, .ok (some (.csv f)))
  | some (.file _) => (w, .error .osError)

/-- The format, utils.py:315-319; `None.endswith` raises `AttributeError`. The empty text is no format either. -/
def inferFormat (filename : Option Str) (format : Option Str) : Except OpenErr (Option Str) :=
  if format = none ∨ format = some [] then
    match filename with
    | none => .error .attributeError
    | some f =>
      if ".h5".toList.isSuffixOf f then .ok (some "HDF".toList)
      else if ".csv".toList.isSuffixOf f then .ok (some "CSV".toList)
      else .ok format
  else .ok format

/-- `get_datastore`, utils.py:303-329. At the end a `ValueError` is made but not raised, so that `None` is returned. -/
def getDatastore {M V α : Type} (w : DiskWorld M V α) (filename format : Option Str) (mode : OpenMode) :
    DiskWorld M V α × Except OpenErr (Option Opened) :=
  match inferFormat filename format with
  | .error e => (w, .error e)
  | .ok format =>
    match filename with
    | some f =>
      if format = some "HDF".toList then openHdf w f mode
      else if format = some "CSV".toList then openCsv w f
      else (w, .error .valueError)
    | none => (w, .ok none)

/-- What `DataSet.__init__` opens, dataset.py:30-45. -/
def dataSetOpen {M V α : Type} (w : DiskWorld M V α) (filename : Option Str) (format : Option Str := some "HDF".toList) :
    DiskWorld M V α × Except OpenErr (Option Opened) :=
  match filename with
  | some f => getDatastore w (some f) format .read
  | none => (w, .ok none)

end Nilmtk
