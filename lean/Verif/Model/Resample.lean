import Verif.Model.Correlation
import Verif.Model.CO
/-!
Model of resampling: the key word arguments handled by `ElecMeter.load` (`nilmtk/elecmeter.py:418-443`) and
`Electric._prep_kwargs_for_sample_period_and_resample` (`nilmtk/electric.py:122-148`), and `safe_resample`
(`nilmtk/utils.py:466-521`).

One column of a chunk is a list of timestamps (nanoseconds) and readings (`none` is NaN). Simplifications: floats are rational
numbers; time zones are not modelled, except that pandas may raise `AmbiguousTimeError`; of the values of `how` and
`fill_method` only `mean`, `max`, `min` and `ffill` (or none) are modelled.
-/
namespace Nilmtk

/-- The aggregation `how`. -/
inductive How where
  | mean | max | min
  deriving DecidableEq, Repr

/-- The aggregation of the readings of one bin that are not NaN: NaN when there are none. -/
def How.agg : How → List Rat → Option Rat
  | _, [] => none
  | .mean, x :: l => some ((x :: l).sum / ((x :: l).length : Nat))
  | .max, x :: l => some (l.foldl Max.max x)
  | .min, x :: l => some (l.foldl Min.min x)

/-- `data[~data.index.duplicated(keep='first')]`, utils.py:505-510: rows whose timestamp is not that of an earlier row. -/
def keepFirst (seen : List Int) : CorChunk → CorChunk
  | [] => []
  | p :: rest => if p.1 ∈ seen then keepFirst seen rest else p :: keepFirst (p.1 :: seen) rest

/-- The readings with timestamp in `[a, b)` that are not NaN. -/
def binReadings (rows : CorChunk) (a b : Int) : List Rat :=
  rows.filterMap (fun p => if a ≤ p.1 ∧ p.1 < b then p.2 else none)

/-- A day in nanoseconds. -/
def dayNs : Int := 86400 * 1000000000

/-- The start of the first bin of `data.resample(rule)` for a rule of `n` nanoseconds: pandas counts bins from the start of the
day of the first timestamp `first`. -/
def binStart (n first : Int) : Int := first - (first % dayNs) % n

/-- `how(data.resample(rule))`, utils.py:501: bins closed on the left, labelled by their start, from the one of the first
timestamp to the one of the last. `first` and `last` are the least and greatest timestamp. -/
def resampleBins (n : Int) (how : How) (first last : Int) (rows : CorChunk) : CorChunk :=
  (List.range ((last - binStart n first) / n + 1).toNat).map (fun i : Nat =>
    let t := binStart n first + i * n
    (t, how.agg (binReadings rows t (t + n))))

/-- `df.ffill(limit=limit)`: `prev` is the last reading, `run` the number of NaNs since. -/
def ffillFrom (limit : Option Nat) (prev : Option Rat) (run : Nat) : CorChunk → CorChunk
  | [] => []
  | (t, some v) :: rest => (t, some v) :: ffillFrom limit (some v) 0 rest
  | (t, none) :: rest =>
    (t, match limit with
        | none => prev
        | some l => if run < l then prev else none) :: ffillFrom limit prev (run + 1) rest

/-- `fill_method`. -/
inductive FillMethod where
  | none | ffill
  deriving DecidableEq, Repr

/-- `fill_method(...)` of utils.py:485-490 and 501: pandas refuses a limit of 0. -/
def fillGaps (fill : FillMethod) (limit : Option Nat) (rows : CorChunk) : Except Err CorChunk :=
  match fill with
  | .none => .ok rows
  | .ffill => if limit = some 0 then .error .valueError else .ok (ffillFrom limit none 0 rows)

/-- The least timestamp. -/
def minTime (t : Int) (rows : CorChunk) : Int := rows.foldl (fun m p => min m p.1) t
/-- The greatest timestamp. -/
def maxTime (t : Int) (rows : CorChunk) : Int := rows.foldl (fun m p => max m p.1) t

/-- `_resample_chain`, utils.py:470-501, of rows that are not empty (`p` is the first); pandas refuses a rule that is not
positive. -/
def resampleChain (n : Int) (how : How) (fill : FillMethod) (limit : Option Nat) (p : Int × Option Rat) (rest : CorChunk) :
    Except Err CorChunk :=
  if n ≤ 0 then .error .valueError
  else fillGaps fill limit (resampleBins n how (minTime p.1 rest) (maxTime p.1 rest) (p :: rest))

/-- `safe_resample`, utils.py:466-521. `ambiguous` says whether pandas raises `AmbiguousTimeError` on these timestamps. The
dictionary `resample_kwargs` is emptied by the first call of `_resample_chain` (utils.py:475-492), so that the second call, in
the work-around (utils.py:513-518), does not find the key `rule`. -/
def safeResample (ambiguous : Bool) (n : Int) (how : How) (fill : FillMethod) (limit : Option Nat) (rows : CorChunk) :
    Except Err CorChunk :=
  match keepFirst [] rows with
  | [] => .ok rows
  | p :: rest => if ambiguous then .error .keyError else resampleChain n how fill limit p rest

/-- The dictionary `resample_kwargs`: `none` for a missing key. -/
structure ResampleKw where
  how : Option How
  fill : Option FillMethod
  limit : Option (Option Nat)
  deriving DecidableEq, Repr

/-- What the meter knows about itself: `sample_period` and `max_sample_period` of its device, in seconds. -/
structure Device where
  samplePeriod : Rat
  maxSamplePeriod : Rat

/-- The key word arguments of `load` that matter here: `none` for a missing one. -/
structure LoadKw where
  samplePeriod : Option Rat
  resample : Option Bool
  kw : ResampleKw
  deriving DecidableEq, Repr

/-- `kwargs.setdefault('resample', True)` if there is a sample period, and `kwargs.get('resample')`, elecmeter.py:418-421. -/
def LoadKw.on (k : LoadKw) : Bool :=
  match k.resample with
  | some b => b
  | none => k.samplePeriod.isSome

/-- The defaults of `resample_kwargs`, elecmeter.py:423-437: the dictionary is changed in place. A sample period of zero makes
the division fail; `int(np.ceil(x))` of a negative number is a negative limit, which pandas refuses. -/
def fillDefaults (d : Device) (k : LoadKw) : Except Err ResampleKw :=
  let kw : ResampleKw := { k.kw with fill := some (k.kw.fill.getD .ffill), how := some (k.kw.how.getD .mean) }
  match k.kw.limit with
  | some _ => .ok kw
  | none =>
    let sp := k.samplePeriod.getD d.samplePeriod
    if sp = 0 then .error .zeroDivisionError
    else if ⌈d.maxSamplePeriod / sp⌉ < 0 then .error .valueError
    else .ok { kw with limit := some (some ⌈d.maxSamplePeriod / sp⌉.toNat) }

/-- `rule`, electric.py:131-135 and 142: `'{:d}S'.format(int(round(sample_period)))`, in nanoseconds. -/
def LoadKw.rule (d : Device) (k : LoadKw) : Int := roundEven (k.samplePeriod.getD d.samplePeriod) * 1000000000

/-- One column of one chunk as delivered by `load`, elecmeter.py:418-460 and electric.py:122-148, and the dictionary
`resample_kwargs` afterwards. -/
def loadColumn (ambiguous : Bool) (d : Device) (k : LoadKw) (rows : CorChunk) : Except Err (CorChunk × ResampleKw) :=
  if k.on then
    match fillDefaults d k with
    | .error e => .error e
    | .ok kw =>
      match safeResample ambiguous (k.rule d) (kw.how.getD .mean) (kw.fill.getD .none) (kw.limit.getD none) rows with
      | .error e => .error e
      | .ok out => .ok (out, kw)
  else .ok (rows, k.kw)

end Nilmtk
