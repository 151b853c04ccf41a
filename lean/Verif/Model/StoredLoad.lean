import Verif.Model.Describe
import Verif.Model.GroupLoad
import Verif.Model.MeterPower
/-!
Model of loading resampled data of meters in an HDF store, from the tables to the chunks: `ElecMeter.load`
(`nilmtk/elecmeter.py:349-460`) with `Electric._prep_kwargs_for_sample_period_and_resample` (`nilmtk/electric.py:122-148`),
`Apply.process` (`nilmtk/preprocessing/apply.py:11-21`) and `HDFDataStore.load`, and `MeterGroup.load` of such meters.

Simplifications: a meter has a table with one column, as the converter of REDD writes it; time zones are not modelled (so that no time
is ambiguous); no `preprocessing`, `resample`, `resample_kwargs` or `columns` is given.
-/
namespace Nilmtk

deriving instance DecidableEq for GChunk

/-- What the meter knows about itself: the periods of its device in seconds. -/
def HomeMeter.device (m : HomeMeter) : Device := ⟨m.samplePeriod, (m.stored.maxSamplePeriod : Rat) / 1000000000⟩

/-- The key word arguments that matter for resampling, with only the sample period given. -/
def samplePeriodKw (sp : Rat) : LoadKw := ⟨some sp, none, ⟨none, none, none⟩⟩

/-- One chunk of the store as `Apply` yields it, apply.py:11-21 with utils.py:466-468: `data.empty` holds without rows and without
columns, and the chunk comes back as it is. -/
def resampledChunk (d : Device) (sp : Rat) (columns : List Col) (c : Chunk (Option Rat)) : Except Err GChunk :=
  if c.rows = [] ∨ columns = [] then .ok ⟨[], c.rows.map (fun r => (r.1, [])), some c.timeframe⟩
  else
    match loadColumn false d (samplePeriodKw sp) c.rows with
    | .error e => .error e
    | .ok (out, _) => .ok ⟨columns, out.map (fun r => (r.1, [r.2])), some c.timeframe⟩

/-- `ElecMeter.load(physical_quantity=..., ac_type=..., sample_period=..., sections=..., chunksize=...)`, elecmeter.py:349-460. The
default limit is computed, and the columns are looked up, before the generator is made. -/
def HomeMeter.load (m : HomeMeter) (pq ac : Req) (sp : Rat) (sections : Option (List TF)) (window : TF) (cs : Int) : Gen GChunk :=
  match fillDefaults m.device (samplePeriodKw sp) with
  | .error e => Gen.raise e
  | .ok _ =>
    match convertToCols m.stored.measurements pq ac none with
    | .error e => Gen.raise e
    | .ok asked =>
      let g := (hdfLoad (m.stored.table.map RawTable.rows) window sections 0 cs).1
      yieldEach (resampledChunk m.device sp (loadedColumns ((m.stored.table.map RawTable.columns).getD []) asked)) g.err g.out

/-- `next(generator)`: `none` is `StopIteration`. -/
def firstOf {α : Type} (g : Gen α) : Except Err (Option α) :=
  match g.out with
  | x :: _ => .ok (some x)
  | [] =>
    match g.err with
    | some e => .error e
    | none => .ok none

/-- What `MeterGroup.load` asks of the meter, metergroup.py:696-723. The argument `chunksize` of the group is not passed on
(metergroup.py:698), so that a member loads chunks of the default size `cs`. -/
def HomeMeter.member (m : HomeMeter) (pq ac : Req) (window : TF) (cs : Int) : LMeter where
  frame := m.stored.frame window
  samplePeriod := m.samplePeriod
  measurements := m.stored.measurements
  first := fun sp piece => firstOf (m.load pq ac sp (some [piece]) window cs)

/-- `MeterGroup.load(physical_quantity=..., ac_type=..., sample_period=..., chunksize=...)`, metergroup.py:640-723; `cs` is the chunk
size that the members use. -/
def loadHomeGroup (ms : List HomeMeter) (pq ac : Req) (sp : Rat) (chunksize : Option Int) (window : TF) (cs : Int) : Gen LChunk :=
  groupLoad (ms.map (fun m => m.member pq ac window cs)) ⟨some sp, none, chunksize, pq, ac, none⟩

end Nilmtk
