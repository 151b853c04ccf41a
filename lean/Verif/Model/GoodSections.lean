import Verif.Model.HDF
import Verif.Model.Results
/-!
Model of `nilmtk/stats/goodsections.py` and `nilmtk/stats/goodsectionsresults.py`.

`max_sample_period` is an integer number of nanoseconds, so that `timedelta <= max_sample_period`
is an exact comparison. A row of the DataFrame is complete (`some`) or has a NaN in some column
(`none`).
-/
namespace Nilmtk

/-- `df.dropna().sort_index().index`, goodsections.py:96. -/
def completeIndex {α : Type} (rows : List (Row (Option α))) : List Int :=
  ((rows.filter (fun r => r.2.isSome)).map Prod.fst).insertionSort (· ≤ ·)

/-- The vectorised part, goodsections.py:102-121: `timedeltas_check` is `prev` followed by
"gap <= max_sample_period" for each gap; `transitions` its differences; an index entry where the check
turns from false to true is a start, from true to false an end. Returns
`(good_sect_starts, good_sect_ends, last_timedeltas_check)`. -/
def scanGaps (msp : Int) (prev : Bool) : List Int → List Int × List Int × Bool
  | [] => ([], [], prev)
  | [_] => ([], [], prev)
  | x :: y :: l =>
    let check := decide (y - x ≤ msp)
    let r := scanGaps msp check (y :: l)
    (if !prev && check then x :: r.1 else r.1, if prev && !check then x :: r.2.1 else r.2.1, r.2.2)

/-- `look_ahead_valid` and `look_ahead_gap`, goodsections.py:130-133: `none` when not valid;
`look_ahead.dropna().index[0]` raises `IndexError` when every look-ahead row has a NaN. -/
def lookAheadGap {α : Type} (look : Option (List (Row (Option α)))) (last : Int) : Except Err (Option Int) :=
  match look with
  | none => .ok none
  | some [] => .ok none
  | some (r :: rs) =>
    match ((r :: rs).filter (fun r => r.2.isSome)).head? with
    | none => .error .indexError
    | some r => .ok (some (r.1 - last))

/-- Work out whether the chunk ends with an open-ended good section, goodsections.py:147-158. -/
def endsOpen (prev : Bool) (starts ends : List Int) : Bool :=
  match ends.getLast? with
  | none => decide (0 < starts.length) || prev
  | some e =>
    match starts.getLast? with
    | some s => decide (e < s)
    | none => false

/-- `[TimeFrame(start, end) for start, end in zip(...) if not (start == end and start is not None)]`,
goodsections.py:170-172. -/
def buildSections : List (Option Int × Option Int) → Except Err (List TF)
  | [] => .ok []
  | (s, e) :: l =>
    if s = e ∧ s ≠ none then buildSections l
    else
      match TF.ctor s e with
      | .error x => .error x
      | .ok f =>
        match buildSections l with
        | .error x => .error x
        | .ok fs => .ok (f :: fs)

/-- `not look_ahead_valid or look_ahead_gap > max_sample_period`, goodsections.py:134. -/
def tooFar (msp : Int) : Option Int → Bool
  | none => true
  | some g => decide (g > msp)

/-- `look_ahead_valid and look_ahead_gap <= max_sample_period`, goodsections.py:140. -/
def near (msp : Int) : Option Int → Bool
  | none => false
  | some g => decide (g ≤ msp)

/-- `get_good_sections`, goodsections.py:78-179. -/
def getGoodSections {α : Type} (msp : Int) (rows : List (Row (Option α)))
    (look : Option (List (Row (Option α)))) (prev : Bool) : Except Err (List TF) :=
  let index := completeIndex rows
  match index.getLast? with
  | none => .ok []
  | some last =>
    if index.length < 2 then .ok []
    else
      let r := scanGaps msp prev index
      match lookAheadGap look last with
      | .error e => .error e
      | .ok gap =>
        let ends := if r.2.2 then (if tooFar msp gap then r.2.1 ++ [last] else r.2.1) else r.2.1
        let starts := if r.2.2 then r.1 else (if near msp gap then r.1 ++ [last] else r.1)
        let isOpen := endsOpen prev starts ends
        let starts' : List (Option Int) := if prev then none :: starts.map some else starts.map some
        let ends' : List (Option Int) := if isOpen then ends.map some ++ [none] else ends.map some
        if starts'.length = ends'.length then buildSections (starts'.zip ends')
        else .error .assertionError

/-- State of the `GoodSections` node: the flag `previous_chunk_ended_with_open_ended_good_section` and
the rows of `self.results`. -/
structure GSState where
  flag : Bool
  rows : List (RRow (List TF))
  deriving DecidableEq, Repr

/-- `GoodSections._process_chunk`, goodsections.py:35-75. -/
def processChunk {α : Type} (msp : Int) (st : GSState) (c : Chunk (Option α)) : Except Err GSState :=
  match getGoodSections msp c.rows c.look st.flag with
  | .error e => .error e
  | .ok [] => .ok st
  | .ok (f :: fs) =>
    match Results.append st.rows c.timeframe (f :: fs) with
    | .error e => .error e
    | .ok rows => .ok ⟨((f :: fs).getLast?.bind TF.stop).isNone, rows⟩

/-- `GoodSections.process`, goodsections.py:26-33: all chunks of the load, in order. -/
def processChunks {α : Type} (msp : Int) : GSState → List (Chunk (Option α)) → Except Err GSState
  | st, [] => .ok st
  | st, c :: cs =>
    match processChunk msp st c with
    | .error e => .error e
    | .ok st' => processChunks msp st' cs

/-- The TimeFrame `sections[-1]`. In `combined` (goodsectionsresults.py:37-86) the list `sections` holds
the very objects stored in the rows processed so far, so it is the concatenation of their sections. -/
def lastSection (rows : List (RRow (List TF))) : Option TF := ((rows.map RRow.val).flatten).getLast?

/-- Replace the last element of a list. -/
def setLast {β : Type} (l : List β) (x : β) : List β := l.dropLast ++ [x]

/-- Assigning to an attribute of `sections[-1]`: the object lives in the last processed row that still
has sections, so that row changes. -/
def putLast : List (RRow (List TF)) → TF → List (RRow (List TF))
  | [], _ => []
  | r :: rows, f =>
    if (rows.map RRow.val).flatten = [] then ({ r with val := setLast r.val f } : RRow (List TF)) :: rows
    else r :: putLast rows f

/-- One iteration of the loop of `combined` with `end_date_of_prev_row = some e`,
goodsectionsresults.py:55-80; returns the processed rows and the current row. -/
def mergeRow (msp : Int) (acc : List (RRow (List TF))) (e : Int) (row : RRow (List TF)) :
    Except Err (List (RRow (List TF)) × RRow (List TF)) :=
  let adjacent := decide (e - msp ≤ row.start) && decide (row.start ≤ e)
  let firstOpen : Except Err Bool :=
    if adjacent then
      match row.val with
      | [] => .error .indexError
      | s :: _ => .ok s.start.isNone
    else .ok false
  match firstOpen with
  | .error x => .error x
  | .ok true =>
    match lastSection acc with
    | none => .error .indexError
    | some last =>
      if last.stop.isSome then .error .assertionError
      else
        match last.setEnd (row.val.head?.bind TF.stop) with
        | .error x => .error x
        | .ok f => .ok (putLast acc f, { row with val := row.val.tail })
  | .ok false =>
    let acc' := match lastSection acc with
      | none => acc
      | some last =>
        if last.stop.isNone then
          match last.setEnd (some e) with
          | .ok f => putLast acc f
          | .error _ => acc
        else acc
    let row' : RRow (List TF) := match row.val with
      | [] => row
      | s :: rest =>
        if s.start.isNone then
          match s.setStart (some row.start) with
          | .ok f => { row with val := f :: rest }
          | .error _ => row
        else row
    .ok (acc', row')

/-- The loop of `combined`, goodsectionsresults.py:48-80; `acc` are the rows processed so far. -/
def combineLoop (msp : Int) :
    List (RRow (List TF)) → Option Int → List (RRow (List TF)) → Except Err (List (RRow (List TF)) × Option Int)
  | acc, prevEnd, [] => .ok (acc, prevEnd)
  | acc, none, row :: rows => combineLoop msp (acc ++ [row]) (some row.stop) rows
  | acc, some e, row :: rows =>
    match mergeRow msp acc e row with
    | .error x => .error x
    | .ok (acc', row') => combineLoop msp (acc' ++ [row']) (some row.stop) rows

/-- `GoodSectionsResults.combined`, goodsectionsresults.py:37-86: the returned sections and the new
content of `_data`, whose lists of sections and TimeFrame objects are edited in place. -/
def combined (msp : Int) (rows : List (RRow (List TF))) : Except Err (List TF × List (RRow (List TF))) :=
  match combineLoop msp [] none rows with
  | .error x => .error x
  | .ok (acc, prevEnd) =>
    match lastSection acc with
    | none => .ok ((acc.map RRow.val).flatten, acc)
    | some last =>
      let last' := { last with includeEnd := true }
      match last'.stop with
      | some _ => .ok (((putLast acc last').map RRow.val).flatten, putLast acc last')
      | none =>
        match last'.setEnd prevEnd with
        | .error x => .error x
        | .ok f => .ok (((putLast acc f).map RRow.val).flatten, putLast acc f)

/-- `ElecMeter.good_sections` without the cache (elecmeter.py:618-634; `_compute_stat` runs the node over all
loaded chunks; then `results_obj.simple()`, which is `combined()`). An exception of the load or of the node
reaches the caller. -/
def goodSections {α : Type} (msp : Int) (load : Gen (Chunk (Option α))) : Except Err (List TF) :=
  match processChunks msp ⟨false, []⟩ load.out with
  | .error e => .error e
  | .ok st =>
    match load.err with
    | some e => .error e
    | none =>
      match combined msp st.rows with
      | .error e => .error e
      | .ok r => .ok r.1

/-- `GoodSectionsResults.unify`, goodsectionsresults.py:88-93. -/
def gsUnify (self other : List (RRow (List TF))) : Except Err (List (RRow (List TF))) :=
  match Results.unifyCheck self other with
  | .error e => .error e
  | .ok () => .ok (self.map (fun r =>
      { r with val := groupIntersection r.val (((Results.loc other r.start).map RRow.val).getD []) }))

end Nilmtk
