import Verif.Model.TimeFrame
/-!
Model of `nilmtk/datastore/hdfdatastore.py` (loading).

The HDF file is modelled as one table per key: a list of rows `(timestamp, values)` in storage
order. `store.select(start, stop)` is `drop start` / `take`, `select_as_coordinates(where)` the
list of positions satisfying the query terms. The `columns` argument (a projection of each row) and
the on-disk format (PyTables) are not modelled.
-/
namespace Nilmtk

/-- A row of a table: its timestamp and its values. -/
abbrev Row (α : Type) := Int × α

/-- The DataFrame yielded by `load`, with its `timeframe` attribute and its `look_ahead` attribute
(`none` when the attribute is not set). -/
structure Chunk (α : Type) where
  rows : List (Row α)
  timeframe : TF
  look : Option (List (Row α))
  deriving DecidableEq, Repr

/-- Whether a timestamp satisfies the terms built by `query_terms` (timeframe.py:183-192). -/
def matchesTerms (terms : Option Int × Option (Int × Bool)) (t : Int) : Bool :=
  (match terms.1 with
    | none => true
    | some s => decide (s ≤ t)) &&
  (match terms.2 with
    | none => true
    | some (e, incl) => if incl then decide (t ≤ e) else decide (t < e))

/-- `store.select_as_coordinates(key, where)`, hdfdatastore.py:84: positions of matching rows. -/
def coordinates {α : Type} (terms : Option Int × Option (Int × Bool)) (table : List (Row α)) : List Nat :=
  (List.range table.length).filter (fun i =>
    match table[i]? with
    | some r => matchesTerms terms r.1
    | none => false)

/-- `store.select(key, start=, stop=)`, hdfdatastore.py:116, 128. -/
def selectRows {α : Type} (table : List (Row α)) (start stop : Nat) : List (Row α) :=
  (table.drop start).take (stop - start)

/-- `_timeframe_for_chunk`, hdfdatastore.py:321-342. -/
def timeframeForChunk (more : Bool) (chunkI : Nat) (w : TF) (index : List Int) : Except Err TF :=
  let start := if more then (if chunkI = 0 then w.start else none)
    else if chunkI > 0 then none else w.start
  let stop := if more then none else w.stop
  match start, stop with
  | some s, some e => TF.ctor (some s) (some e)
  | some s, none =>
    match index.getLast? with
    | some e => TF.ctor (some s) (some e)
    | none => .error .indexError
  | none, stop =>
    match index.head? with
    | none => .error .indexError
    | some s =>
      match stop with
      | some e => TF.ctor (some s) (some e)
      | none =>
        match index.getLast? with
        | some e => TF.ctor (some s) (some e)
        | none => .error .indexError

/-- `n_chunks = int(np.ceil((section_end_i - section_start_i) / chunksize))`,
hdfdatastore.py:103 (exact arithmetic). -/
def nChunks (start stop cs : Nat) : Nat := (stop - start + cs - 1) / cs

/-- The look-ahead of a chunk, hdfdatastore.py:123-142; `chunkEnd` is the exclusive end of the
chunk. -/
def lookAhead {α : Type} (table : List (Row α)) (data : List (Row α)) (chunkEnd : Nat) (nLook : Int) :
    Option (List (Row α)) :=
  if nLook > 0 then
    if data.length > 0 then some (selectRows table chunkEnd (chunkEnd + nLook.toNat)) else some []
  else none

/-- The chunk loop `for chunk_i, chunk_start_i in enumerate(range(start, end, chunksize))`,
hdfdatastore.py:108-148. -/
def chunkLoop {α : Type} (table : List (Row α)) (w : TF) (nLook : Int) (cs stop n : Nat) (hcs : 0 < cs)
    (i s : Nat) : Gen (Chunk α) :=
  if _h : s < stop then
    let chunkEnd := (if s + cs > stop then stop else s + cs) + 1
    let data := selectRows table s chunkEnd
    match timeframeForChunk (decide (i + 1 < n)) i w (data.map Prod.fst) with
    | .error e => Gen.raise e
    | .ok tf =>
      Gen.cons ⟨data, tf, lookAhead table data chunkEnd nLook⟩
        (chunkLoop table w nLook cs stop n hcs (i + 1) (s + cs))
  else Gen.done
termination_by stop - s
decreasing_by omega

/-- Lines 102-148 of hdfdatastore.py for positions `start`..`stop`: the chunks, and whether
`n_chunks > 1`. `range` raises `ValueError` for a zero step and is empty for a negative one. -/
def loadRange {α : Type} (table : List (Row α)) (w : TF) (nLook cs : Int) (start stop : Nat) :
    Gen (Chunk α) × Bool :=
  if h : 0 < cs then
    (chunkLoop table w nLook cs.toNat stop (nChunks start stop cs.toNat) (by omega) 0 start,
      decide (nChunks start stop cs.toNat > 1))
  else if cs = 0 then (Gen.raise .valueError, false)
  else (Gen.done, false)

/-- One iteration of the `for section in sections` loop of `HDFDataStore.load`,
hdfdatastore.py:62-148. `table` is `none` when the key does not exist. The second component tells
whether the flag `all_sections_smaller_than_chunksize` is set to `False`. -/
def loadSection {α : Type} (table : Option (List (Row α))) (window : TF) (nLook cs : Int) (sec : TF) :
    Gen (Chunk α) × Bool :=
  let w := window.intersection sec
  if w.empty then (⟨[⟨[], sec, none⟩], none⟩, false)
  else
    match table with
    | none => (Gen.raise .keyError, false)
    | some table =>
      match w.queryTerms with
      | .error e => (Gen.raise e, false)
      | .ok none =>
        if table.length ≤ 1 then (⟨[⟨[], sec, none⟩], none⟩, false)
        else loadRange table w nLook cs 0 table.length
      | .ok (some terms) =>
        match (coordinates terms table).head?, (coordinates terms table).getLast? with
        | some start, some stop => loadRange table w nLook cs start stop
        | _, _ => (⟨[⟨[], w, none⟩], none⟩, false)

/-- The loop over sections; returns the chunks and the final value of
`self.all_sections_smaller_than_chunksize` (set to `True` at line 60). -/
def loadSections {α : Type} (table : Option (List (Row α))) (window : TF) (nLook cs : Int) :
    List TF → Bool → Gen (Chunk α) × Bool
  | [], flag => (Gen.done, flag)
  | sec :: secs, flag =>
    let (g, many) := loadSection table window nLook cs sec
    let flag' := flag && !many
    match g.err with
    | some _ => (g, flag')
    | none =>
      let (g', flag'') := loadSections table window nLook cs secs flag'
      (g.append g', flag'')

/-- `HDFDataStore.load`, hdfdatastore.py:31-148; `sections = none` means `[TimeFrame()]`. -/
def hdfLoad {α : Type} (table : Option (List (Row α))) (window : TF) (sections : Option (List TF))
    (nLook cs : Int) : Gen (Chunk α) × Bool :=
  loadSections table window nLook cs (sections.getD [TF.blank]) true

end Nilmtk
