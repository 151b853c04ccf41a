import Verif.Model.Combine
import Verif.Model.Measurement
import Verif.Model.Group
import Verif.Model.Resample
import Verif.Model.Experiment
/-!
Model of loading a group in chunks: `MeterGroup.load` (`nilmtk/metergroup.py:640-723`),
`MeterGroup._convert_physical_quantity_and_ac_type_to_cols` (725-735), `MeterGroup.sample_period` (574-576),
`normalise_timestamp` (`nilmtk/utils.py:331-339`), `Electric.load_series` and `Electric.power_series`
(`nilmtk/electric.py:607-650`).

Simplifications: time zones are not modelled; floats are rational numbers; a member of the group is given by what `load` asks of
it, so members that are groups themselves are covered only as far as they behave like that. The members are loaded before
they are combined, where the code loads one, adds it, loads the next; only which of several exceptions is seen depends on that.
-/
namespace Nilmtk

/-- What `MeterGroup.load` asks of a member: `get_timeframe()` (which may raise), `sample_period()` in seconds, the measurements of its device,
and the first chunk of `load(sections=[section], sample_period=..., ...)` (`none`: no chunk). The other key word arguments do not
change from call to call, so the function may depend on them. -/
structure LMeter where
  frame : Except Err TF
  samplePeriod : Rat
  measurements : List Measurement
  first : Rat → TF → Except Err (Option GChunk)

/-- `sample_period`, metergroup.py:574-576: `max` of an empty list raises `ValueError`. -/
def groupPeriod : List LMeter → Except Err Rat
  | [] => .error .valueError
  | m :: ms => .ok (ms.foldl (fun p x => max p x.samplePeriod) m.samplePeriod)

/-- `get_timeframe`, metergroup.py:1382-1390, of the members' frames. -/
def unionFrames (acc : Option TF) : List (Except Err TF) → Except Err (Option TF)
  | [] => .ok acc
  | .error e :: _ => .error e
  | .ok f :: fs =>
    match timeframeStep acc (some f) with
    | .error e => .error e
    | .ok acc' => unionFrames acc' fs

/-- `_convert_physical_quantity_and_ac_type_to_cols`, metergroup.py:725-735. `list(set)` has no definite order: the theorems speak
of a permutation or of membership. -/
def groupColumns (ms : List LMeter) (pq ac : Req) (columns : Option (List Col)) : Except Err (List Col) :=
  (collect (fun m : LMeter => convertToCols m.measurements pq ac columns) ms).map List.dedup

/-- `int(sample_period)` seconds, metergroup.py:703, in nanoseconds. -/
def freqNs (sp : Rat) : Int := (if 0 ≤ sp then ⌊sp⌋ else ⌈sp⌉) * 1000000000

/-- `duration_threshold`, metergroup.py:699, as a `timedelta` (timeframe.py:285), which has microseconds. -/
def thresholdNs (sp : Rat) (chunksize : Int) : Int := roundEven (sp * chunksize * 1000000) * 1000

/-- `normalise_timestamp`, utils.py:331-339: the label of the only bin. pandas refuses a frequency that is not positive; an
empty frame has no start, and `NaT` cannot be resampled. -/
def normaliseTimestamp (n : Int) (t : Option Int) : Except Err Int :=
  match t with
  | none => .error .exception
  | some t => if n ≤ 0 then .error .valueError else .ok (binStart n t)

/-- `pd.date_range(start, end, inclusive='left', freq=freq)`, metergroup.py:718-720. -/
def dateRangeLeft (n start stop : Int) : List Int :=
  (List.range ((stop - start + n - 1) / n).toNat).map (fun i : Nat => start + i * n)

/-- A chunk of a group: the index, the columns, one list of readings per column, and the time frame. -/
structure LChunk where
  index : List Int
  columns : List Col
  cells : List (List (Option Rat))
  timeframe : Option TF
  deriving DecidableEq

/-- The body of the loop over the sections, metergroup.py:714-723. -/
def loadPiece (ms : List LMeter) (sp : Rat) (columns : List Col) (piece : TF) : Except Err LChunk :=
  match normaliseTimestamp (freqNs sp) piece.start with
  | .error e => .error e
  | .ok start =>
    match piece.stop with
    | none => .error .attributeError
    | some stop =>
      match mapE (fun m : LMeter => m.first sp piece) ms with
      | .error e => .error e
      | .ok firsts =>
        match combineChunks (dateRangeLeft (freqNs sp) start stop) columns firsts with
        | .error e => .error e
        | .ok (cells, tf) => .ok ⟨dateRangeLeft (freqNs sp) start stop, columns, cells, tf⟩

/-- `for x in ...: yield f(x)` over the values that a generator yields before it raises `err` or ends. -/
def yieldEach {α β : Type} (f : α → Except Err β) (err : Option Err) : List α → Gen β
  | [] => ⟨[], err⟩
  | x :: xs =>
    match f x with
    | .error e => Gen.raise e
    | .ok y => Gen.cons y (yieldEach f err xs)

/-- The key word arguments of `load`: `none` for a missing one. A section can be `None`, see `groupLoad`. -/
structure GLoadKw where
  samplePeriod : Option Rat
  sections : Option (List TF)
  chunksize : Option Int
  pq : Req
  ac : Req
  columns : Option (List Col)

/-- `MAX_MEM_ALLOWANCE_IN_BYTES`, datastore/datastore.py:5. -/
def maxMemAllowance : Int := 2 ^ 28

/-- `MeterGroup.load`, metergroup.py:640-723. The defaults are computed even when they are not used (696-697). Every `TimeFrame`
is true in Python 3, so that the filter of line 707 only drops `None`, which is the time frame of a group without
members. -/
def groupLoad (ms : List LMeter) (k : GLoadKw) : Gen LChunk :=
  match groupPeriod ms with
  | .error e => Gen.raise e
  | .ok period =>
    match unionFrames none (ms.map LMeter.frame) with
    | .error e => Gen.raise e
    | .ok frame =>
      match groupColumns ms k.pq k.ac k.columns with
      | .error e => Gen.raise e
      | .ok columns =>
        if k.sections.getD frame.toList = [] then ⟨[⟨[], columns, columns.map (fun _ => []), none⟩], none⟩
        else
          let pieces := splitTimeframes (k.sections.getD frame.toList)
            (thresholdNs (k.samplePeriod.getD period) (k.chunksize.getD maxMemAllowance))
          yieldEach (loadPiece ms (k.samplePeriod.getD period) columns) pieces.err pieces.out

/-- `sum(axis=1, skipna=False)` of one row. -/
def strictSum : List (Option Rat) → Option Rat
  | [] => some 0
  | none :: _ => none
  | some x :: l => (strictSum l).map (fun y => x + y)

/-- A series yielded by `load_series`: the AC types of its name (joined with `+` in the code) and the readings. -/
structure LSeries where
  acTypes : List String
  rows : List (Int × Option Rat)
  deriving DecidableEq

/-- The body of `load_series`, electric.py:627-637: a chunk without rows or columns is passed on; `chunk[physical_quantity]`
raises `KeyError` when there is no such column. -/
def seriesOfChunk (q : String) (c : LChunk) : Except Err LSeries :=
  if c.index = [] ∨ c.columns = [] then .ok ⟨[], []⟩
  else
    let picked := (c.columns.zip c.cells).filter (fun p => p.1.1 == q)
    if picked = [] then .error .keyError
    else .ok ⟨picked.map (fun p => p.1.2),
      (List.range c.index.length).map (fun i : Nat =>
        (c.index.getD i 0, strictSum (picked.map (fun p => p.2.getD i none))))⟩

/-- `load_series`, electric.py:607-637, of a group. -/
def groupSeries (ms : List LMeter) (q : String) (k : GLoadKw) : Gen LSeries :=
  let g := groupLoad ms { k with pq := .one q }
  yieldEach (seriesOfChunk q) g.err g.out

/-- `power_series`, electric.py:639-650, of a group. -/
def groupPowerSeries (ms : List LMeter) (k : GLoadKw) : Gen LSeries :=
  groupSeries ms "power" { k with ac := if k.ac = .none then .one "best" else k.ac }

/-- A meter with one column in the store. -/
structure ColumnMeter where
  col : Col
  device : Device
  table : CorChunk

/-- The first chunk of `ElecMeter.load(sections=[section], sample_period=sp)`, elecmeter.py:347-460, of a meter with one column:
the rows of the section, resampled. Simplification: the rows of the section fit into one chunk of the store, and the store has no
window. -/
def ColumnMeter.first (m : ColumnMeter) (sp : Rat) (piece : TF) : Except Err (Option GChunk) :=
  let inside : Int → Bool := fun t =>
    !piece.empty && (piece.start.all (fun s => decide (s ≤ t))) &&
      (piece.stop.all (fun e => decide (t < e) || (piece.includeEnd && decide (t = e))))
  match loadColumn false m.device ⟨some sp, none, ⟨none, none, none⟩⟩ (m.table.filter (fun p => inside p.1)) with
  | .error e => .error e
  | .ok (out, _) => .ok (some ⟨[m.col], out.map (fun p => (p.1, [p.2])), some piece⟩)

/-- `get_timeframe` of such a meter, hdfdatastore.py:216-226: from the first to the last row; a table without rows raises
`IndexError`. -/
def ColumnMeter.frame (m : ColumnMeter) : Except Err TF :=
  match m.table.head?, m.table.getLast? with
  | some a, some b => TF.ctor (some a.1) (some b.1)
  | _, _ => .error .indexError

/-- Such a meter as a member of a group. -/
def ColumnMeter.toLMeter (m : ColumnMeter) : LMeter where
  frame := m.frame
  samplePeriod := m.device.samplePeriod
  measurements := [⟨m.col.1, some m.col.2, none, none⟩]
  first := m.first

end Nilmtk
