import Verif.Model.HDF
/-!
Model of `nilmtk/stats/totalenergy.py` and of `power_series_all_data` in `nilmtk/electric.py`.

Power and energy readings are exact rationals, `none` is NaN. Floating point rounding is not
modelled.
-/
namespace Nilmtk

/-- A column of readings with its timestamps (`pd.Series`); `none` is NaN. -/
abbrev Series := List (Row (Option Rat))

/-- The physical quantities told apart by the energy code (measurement.py:9-11). -/
inductive PQ where
  | power | energy | cumulativeEnergy | other (n : Nat)
  deriving DecidableEq, Repr

/-- AC types; `other` stands for any string outside `AC_TYPES`. -/
inductive AC where
  | active | apparent | reactive | other (n : Nat)
  deriving DecidableEq, Repr

/-- `AC_TYPES`, measurement.py:5, in order of preference. -/
def acTypes : List AC := [.active, .apparent, .reactive]

/-- `series.dropna()`. -/
def dropna : Series → List (Row Rat)
  | [] => []
  | (t, some v) :: l => (t, v) :: dropna l
  | (_, none) :: l => dropna l

/-- `timedelta64_to_secs`, utils.py:51-65: nanoseconds to seconds. -/
def toSecs (d : Int) : Rat := (d : Rat) / 1000000000

/-- `(np.diff(index).clip(max=max_sample_period) * values[:-1]).sum()`,
totalenergy.py:93-98. -/
def joules (msp : Rat) : List (Row Rat) → Rat
  | [] => 0
  | [_] => 0
  | a :: b :: l => min (toSecs (b.1 - a.1)) msp * a.2 + joules msp (b :: l)

/-- `JOULES_PER_KWH`, consts.py:1. -/
def joulesPerKwh : Rat := 3600000

/-- `_energy_for_power_series`, totalenergy.py:80-100. -/
def energyForPowerSeries (msp : Rat) (s : Series) : Rat := joules msp (dropna s) / joulesPerKwh

/-- `series.sum()`: NaNs are skipped. -/
def seriesSum (s : Series) : Rat := ((dropna s).map Prod.snd).sum

/-- `series.iloc[-1] - series.iloc[0]`: `IndexError` on an empty series, NaN if either is NaN. -/
def lastMinusFirst (s : Series) : Except Err (Option Rat) :=
  match s.head?, s.getLast? with
  | some a, some b =>
    match a.2, b.2 with
    | some x, some y => .ok (some (y - x))
    | _, _ => .ok none
  | _, _ => .error .indexError

/-- A DataFrame as the list of its columns. Simplification: every column carries the index; column
names are meant to be distinct and looked up by first match. -/
abbrev Frame := List ((PQ × AC) × Series)

/-- `df[col]`. -/
def Frame.col (df : Frame) (c : PQ × AC) : Series := (df.lookup c).getD []

/-- `PHYSICAL_QUANTITY_PREFS`, totalenergy.py:55. -/
def pqPrefs : List PQ := [.cumulativeEnergy, .energy, .power]

/-- The selection loop, totalenergy.py:54-64. -/
def selectedColumns (keys : List (PQ × AC)) : List (PQ × AC) :=
  acTypes.filterMap (fun ac =>
    let physicalQuantities := (keys.filter (fun k => k.2 = ac)).map Prod.fst
    (pqPrefs.find? (fun pq => pq ∈ physicalQuantities)).map (fun pq => (pq, ac)))

/-- The body of the second loop, totalenergy.py:68-75; the value is NaN for `none`. -/
def energyOfColumn (msp : Rat) (df : Frame) (c : PQ × AC) : Except Err (AC × Option Rat) :=
  match c.1 with
  | .power => .ok (c.2, some (energyForPowerSeries msp (df.col c)))
  | .cumulativeEnergy =>
    match lastMinusFirst (df.col c) with
    | .ok v => .ok (c.2, v)
    | .error e => .error e
  | .energy => .ok (c.2, some (seriesSum (df.col c)))
  | .other _ => .error .keyError

/-- The second loop. -/
def energyLoop (msp : Rat) (df : Frame) : List (PQ × AC) → Except Err (List (AC × Option Rat))
  | [] => .ok []
  | c :: cs =>
    match energyOfColumn msp df c with
    | .error e => .error e
    | .ok x =>
      match energyLoop msp df cs with
      | .error e => .error e
      | .ok l => .ok (x :: l)

/-- `get_total_energy`, totalenergy.py:39-77: the dictionary `energy` as a list of pairs. -/
def getTotalEnergy (msp : Rat) (df : Frame) : Except Err (List (AC × Option Rat)) :=
  energyLoop msp df (selectedColumns (df.map Prod.fst))

/-- Lines 113-115 of electric.py: the first row of a chunk is dropped when it is not after
`prev_end` (`none` for the first chunk). -/
def trimHead {α : Type} (prev : Option Int) (c : List (Row α)) : List (Row α) :=
  match prev, c.head? with
  | some e, some r => if r.1 ≤ e then c.tail else c
  | _, _ => c

/-- The loop of `power_series_all_data`, electric.py:109-116, over the non-empty chunks; `prev` is
`prev_end`. -/
def dropOverlaps {α : Type} : Option Int → List (List (Row α)) → List (List (Row α))
  | _, [] => []
  | prev, c :: cs => trimHead prev c :: dropOverlaps (c.getLast?.map Prod.fst) cs

/-- `power_series_all_data`, electric.py:103-120, applied to the series yielded by
`power_series`. -/
def powerSeriesAllData {α : Type} (series : List (List (Row α))) : Option (List (Row α)) :=
  let chunks := series.filter (fun c => decide (0 < c.length))
  match chunks with
  | [] => none
  | _ => some (dropOverlaps none chunks).flatten

/-- The same, fed by a generator that may raise (the exception propagates). -/
def powerSeriesAllDataGen {α : Type} (g : Gen (Chunk α)) : Except Err (Option (List (Row α))) :=
  match g.err with
  | some e => .error e
  | none => .ok (powerSeriesAllData (g.out.map Chunk.rows))

end Nilmtk
