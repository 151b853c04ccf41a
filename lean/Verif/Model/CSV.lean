import Verif.Model.HDF
/-!
Model of `CSVDataStore.load` (`nilmtk/datastore/csvdatastore.py`:45-105).

The CSV file is modelled as its data rows in file order, preceded by `2` header lines and, when
`nameLine` is set, a third line with the index name (pandas' `to_csv` writes that line only when the
index has a name). Column selection is not modelled.
-/
namespace Nilmtk

/-- The pieces produced by iterating over `pd.read_csv(..., chunksize=cs)`: consecutive blocks of
`cs` rows. -/
def csvPieces {α : Type} (cs : Nat) (hcs : 0 < cs) (rows : List (Row α)) : List (List (Row α)) :=
  if _h : rows = [] then []
  else rows.take cs :: csvPieces cs hcs (rows.drop cs)
termination_by rows.length
decreasing_by
  have : 0 < rows.length := List.length_pos_iff.2 _h
  simp only [List.length_drop]; omega

/-- The row mask, csvdatastore.py:75-82 (always `<` at the end; `include_end` is not looked at). -/
def csvMask (w : TF) (t : Int) : Bool :=
  if w.empty then false
  else
    (match w.start with
      | some s => decide (t ≥ s)
      | none => true) &&
    (match w.stop with
      | some e => decide (t < e)
      | none => true)

/-- `np.max(np.nonzero(subchunk_idx))`, csvdatastore.py:86: position in the piece of the last row
kept by the mask. -/
def lastKept {α : Type} (w : TF) (piece : List (Row α)) : Nat :=
  ((List.range piece.length).filter (fun i =>
    match piece[i]? with
    | some r => csvMask w r.1
    | none => false)).getLast?.getD 0

/-- The look-ahead, csvdatastore.py:89-103: skip `3 + chunk_idx*chunksize + subchunk_end + 1` lines
of the file and read at most `n` rows (`EmptyDataError` is a `ValueError`, hence an empty frame). -/
def csvLook {α : Type} (rows : List (Row α)) (nameLine : Bool) (cs idx last : Nat) (nLook : Int) :
    Option (List (Row α)) :=
  if nLook > 0 then
    some ((rows.drop (3 + idx * cs + last + 1 - (if nameLine then 3 else 2))).take nLook.toNat)
  else none

/-- The loop over the pieces of the file, csvdatastore.py:68-105. -/
def csvLoop {α : Type} (rows : List (Row α)) (nameLine : Bool) (w : TF) (nLook : Int) (cs : Nat) :
    Nat → List (List (Row α)) → Gen (Chunk α)
  | _, [] => Gen.done
  | idx, piece :: pieces =>
    let sub := piece.filter (fun r => csvMask w r.1)
    match sub.head?, sub.getLast? with
    | some a, some b =>
      match TF.ctor (some a.1) (some b.1) with
      | .error e => Gen.raise e
      | .ok tf => Gen.cons ⟨sub, tf, csvLook rows nameLine cs idx (lastKept w piece) nLook⟩
          (csvLoop rows nameLine w nLook cs (idx + 1) pieces)
    | _, _ => csvLoop rows nameLine w nLook cs (idx + 1) pieces

/-- One section of `CSVDataStore.load`, csvdatastore.py:57-105. A missing file raises
`FileNotFoundError`, a chunksize below 1 raises `ValueError` (both from `pd.read_csv`). -/
def csvLoadSection {α : Type} (file : Option (List (Row α))) (nameLine : Bool) (window : TF)
    (nLook cs : Int) (sec : TF) : Gen (Chunk α) :=
  match file with
  | none => Gen.raise .fileNotFound
  | some rows =>
    if h : 0 < cs then
      csvLoop rows nameLine (window.intersection sec) nLook cs.toNat 0
        (csvPieces cs.toNat (by omega) rows)
    else Gen.raise .valueError

/-- The loop over sections, csvdatastore.py:57-105. -/
def csvLoadSections {α : Type} (file : Option (List (Row α))) (nameLine : Bool) (window : TF)
    (nLook cs : Int) : List TF → Gen (Chunk α)
  | [] => Gen.done
  | s :: secs => (csvLoadSection file nameLine window nLook cs s).append
      (csvLoadSections file nameLine window nLook cs secs)

/-- `CSVDataStore.load`: the chunks and the flag `all_sections_smaller_than_chunksize`, which is
only ever assigned `True` (csvdatastore.py:55). -/
def csvLoad {α : Type} (file : Option (List (Row α))) (nameLine : Bool) (window : TF)
    (sections : Option (List TF)) (nLook cs : Int) : Gen (Chunk α) × Bool :=
  (csvLoadSections file nameLine window nLook cs (sections.getD [TF.blank]), true)

end Nilmtk
