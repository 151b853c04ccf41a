import Verif.Model.Dropout
import Mathlib.Data.List.Dedup
/-!
Model of `MeterGroup.dataframe_of_meters`, `nilmtk/metergroup.py:945-992`.

Simplifications: the meters of the group have distinct identifiers; the index of an outer join is sorted (pandas sorts
the union of sorted time indices); a meter is given by its identifier and by what its `load` yields.
-/
namespace Nilmtk

/-- A chunk of a meter: number of columns and rows (one reading per column, `none` is NaN). -/
structure MChunk where
  ncols : Nat
  rows : List (Int × List (Option Rat))
  deriving DecidableEq, Repr

/-- `DataFrame.empty`: no rows or no columns. -/
def MChunk.empty (c : MChunk) : Bool := c.rows.isEmpty || c.ncols == 0

/-- `chunk.sum(axis=1)`, metergroup.py:980: NaNs count as zero. -/
def MChunk.sums (c : MChunk) : List (Int × Rat) := c.rows.map (fun r => (r.1, skipSum r.2))

/-- The `for` loop of a round, metergroup.py:970-980: one `next` per meter. Returns the chunks with the identifiers of
their meters, and the generators afterwards. -/
def nextRound {ι : Type} : List (ι × Gen MChunk) →
    Except Err (List (ι × List (Int × Rat)) × List (ι × Gen MChunk))
  | [] => .ok ([], [])
  | (i, g) :: gs =>
    match g.out, g.err with
    | [], some e => .error e
    | [], none =>
      match nextRound gs with
      | .error e => .error e
      | .ok (cs, gs') => .ok (cs, (i, g) :: gs')
    | c :: out, err =>
      match nextRound gs with
      | .error e => .error e
      | .ok (cs, gs') => .ok (if c.empty then cs else (i, c.sums) :: cs, (i, ⟨out, err⟩) :: gs')

/-- A DataFrame with one column per meter: column names and rows (one cell per column, `none` is NaN). -/
structure MFrame (ι : Type) where
  cols : List ι
  rows : List (Int × List (Option Rat))
  deriving DecidableEq, Repr

/-- The sorted union of the indices of an outer join. -/
def unionIndex (idxs : List (List Int)) : List Int := (idxs.flatten.dedup).insertionSort (· ≤ ·)

/-- `pd.concat(chunks, axis=1); df.columns = ids`, metergroup.py:983-984: equal indices are used as they are, otherwise the
series are reindexed to the union, which raises when an index has duplicates (`InvalidIndexError`). -/
def segmentOf {ι : Type} (cs : List (ι × List (Int × Rat))) : Except Err (MFrame ι) :=
  match cs with
  | [] => .error .valueError
  | c :: cs' =>
    if ∀ d ∈ cs', d.2.map Prod.fst = c.2.map Prod.fst then
      .ok ⟨(c :: cs').map Prod.fst, (c.2.map Prod.fst).zipIdx.map (fun p =>
        (p.1, (c :: cs').map (fun d => d.2[p.2]?.map Prod.snd)))⟩
    else if ∀ d ∈ c :: cs', (d.2.map Prod.fst).Nodup then
      .ok ⟨(c :: cs').map Prod.fst, (unionIndex ((c :: cs').map (fun d => d.2.map Prod.fst))).map (fun t =>
        (t, (c :: cs').map (fun d => d.2.lookup t)))⟩
    else .error .exception

/-- The `while True` loop, metergroup.py:968-987, with fuel for its rounds: it ends at the first round without a
non-empty chunk. -/
def frameLoop {ι : Type} : Nat → List (ι × Gen MChunk) → Except Err (List (MFrame ι))
  | 0, _ => .ok []
  | fuel + 1, gens =>
    match nextRound gens with
    | .error e => .error e
    | .ok ([], _) => .ok []
    | .ok (c :: cs, gens') =>
      match segmentOf (c :: cs) with
      | .error e => .error e
      | .ok s =>
        match frameLoop fuel gens' with
        | .error e => .error e
        | .ok ss => .ok (s :: ss)

/-- The cell of a row in a column of the concatenated frame: NaN if the segment lacks the column. -/
def cellIn {ι : Type} [DecidableEq ι] (cols : List ι) (vals : List (Option Rat)) (i : ι) : Option Rat :=
  ((cols.zip vals).lookup i).join

/-- The columns of `pd.concat(segments)`: in order of first appearance. -/
def joinCols {ι : Type} [DecidableEq ι] : List (MFrame ι) → List ι
  | [] => []
  | s :: ss => s.cols ++ (joinCols ss).filter (fun i => i ∉ s.cols)

/-- `pd.concat(segments)`, metergroup.py:990. -/
def concatFrames {ι : Type} [DecidableEq ι] (ss : List (MFrame ι)) : MFrame ι :=
  ⟨joinCols ss, ss.flatMap (fun s => s.rows.map (fun r => (r.1, (joinCols ss).map (cellIn s.cols r.2))))⟩

/-- `MeterGroup.dataframe_of_meters`, metergroup.py:945-992. The number of chunks bounds the number of rounds. -/
def frameOfMeters {ι : Type} [DecidableEq ι] (gens : List (ι × Gen MChunk)) : Except Err (MFrame ι) :=
  match frameLoop ((gens.map (fun g => g.2.out.length)).sum + 1) gens with
  | .error e => .error e
  | .ok [] => .ok ⟨gens.map Prod.fst, []⟩
  | .ok (s :: ss) => .ok (concatFrames (s :: ss))

end Nilmtk
