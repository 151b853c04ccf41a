import Verif.Model.StoredLoad
import Verif.Model.ExperimentRun
/-!
Model of an experiment on data sets in HDF stores, from the tables to the errors: the loading in `API.train_jointly` and
`API.test_jointly` (`nilmtk/api.py:199-274`) of what `elec.mains()` (`nilmtk/metergroup.py:777-796`) and `elec[appliance_name]` load,
the loops around it and `Mean.disaggregate_chunk` (`nilmtk/disaggregate/mean.py:30-39`) as a method of the experiment.

Simplifications: as in `Model/StoredLoad.lean` and `Model/Experiment.lean`; an appliance has one meter; `chunk_size` is not given.
-/
namespace Nilmtk

/-- A building of a data set: its key in the report, its site meters, `elec[name]` and the window set for it. -/
structure StoredBuilding where
  key : String
  mains : List HomeMeter
  appliance : String → Except Err HomeMeter
  window : TF

/-- What the experiment asks of the store: `power['mains']`, `power['appliance']`, `sample_period`, and the default chunk size of the
store. -/
structure LoadCfg where
  mains : Req
  appliance : Req
  samplePeriod : Rat
  cs : Int

/-- The rows of a chunk of a group. -/
def LChunk.frame (c : LChunk) : RowFrame :=
  c.index.zipIdx.map (fun p => (p.1, c.cells.map (fun col => col.getD p.2 none)))

/-- `next(...)` of a generator of frames, each with its columns: the `StopIteration` of a generator without chunks is an exception. -/
def nextFrame (r : Except Err (Option (List Col × RowFrame))) : Except Err (List Col × RowFrame) :=
  match r with
  | .error e => .error e
  | .ok none => .error .exception
  | .ok (some f) => .ok f

/-- `next(meter.load(...))` of one meter, api.py:212, 217, 253, 260. -/
def meterFrame (k : LoadCfg) (req : Req) (window : TF) (m : HomeMeter) : Except Err (List Col × RowFrame) :=
  nextFrame ((firstOf (m.load (.one "power") req k.samplePeriod none window k.cs)).map (Option.map (fun c => (c.cols, c.rows))))

/-- `next(elec.mains().load(...))`, api.py:212, 253 with metergroup.py:789-796: `None` has no `load`; one site meter loads itself. -/
def mainsFrame (k : LoadCfg) (window : TF) : List HomeMeter → Except Err (List Col × RowFrame)
  | [] => .error .attributeError
  | [m] => meterFrame k k.mains window m
  | ms => nextFrame ((firstOf (loadHomeGroup ms (.one "power") k.mains k.samplePeriod none window k.cs)).map
      (Option.map (fun c => (c.columns, c.frame))))

/-- `next(elec[name].load(...))`, api.py:217, 260. -/
def applianceFrame (k : LoadCfg) (b : StoredBuilding) (name : String) : Except Err (List Col × RowFrame) :=
  match b.appliance name with
  | .error e => .error e
  | .ok m => meterFrame k k.appliance b.window m

/-- `df[[list(df.columns)[0]]]`, api.py:213, 218: `IndexError` without columns. -/
def firstColumn (f : List Col × RowFrame) : Except Err RowFrame :=
  if f.1 = [] then .error .indexError else .ok (f.2.map (fun r => (r.1, r.2.take 1)))

/-- `f(x)` of what does not raise. -/
def thenE {α β : Type} (x : Except Err α) (f : α → Except Err β) : Except Err β :=
  match x with
  | .error e => .error e
  | .ok y => f y

/-- The frames of a building that training loads, api.py:212-219. -/
def trainFrames (k : LoadCfg) (b : StoredBuilding) : Except Err ExpBuilding :=
  match thenE (mainsFrame k b.window b.mains) firstColumn with
  | .error e => .error e
  | .ok rows => .ok ⟨b.key, rows, fun a => thenE (applianceFrame k b a) firstColumn⟩

/-- The frames of a building that testing loads, api.py:253-261. -/
def testFrames (k : LoadCfg) (b : StoredBuilding) : Except Err ExpBuilding :=
  match mainsFrame k b.window b.mains with
  | .error e => .error e
  | .ok f => .ok ⟨b.key, f.2, fun a => (applianceFrame k b a).map Prod.snd⟩

/-- The loop of `train_jointly` over the buildings, api.py:206-232. -/
def trainStored {ρ : Type} (cfg : ExpCfg ρ) (k : LoadCfg) :
    List StoredBuilding → List RowFrame → List (List RowFrame) → Except Err (List RowFrame × List (List RowFrame))
  | [], ms, subs => .ok (ms, subs)
  | b :: bs, ms, subs =>
    match trainFrames k b with
    | .error e => .error e
    | .ok eb =>
      match trainLoop cfg [eb] ms subs with
      | .error e => .error e
      | .ok (ms', subs') => trainStored cfg k bs ms' subs'

/-- `train_jointly`, api.py:199-240. -/
def fitStored {ρ σ : Type} (cfg : ExpCfg ρ) (k : LoadCfg) (bs : List StoredBuilding) (c : Clf σ) : Except Err (Clf σ) :=
  match trainStored cfg k bs [] (cfg.appliances.map (fun _ => [])) with
  | .error e => .error e
  | .ok (ms, subs) =>
    match c.fit c.nEpochs c.state ms (cfg.appliances.zip subs) none with
    | .error e => .error e
    | .ok s => .ok { c with state := s }

/-- The loop of `test_jointly` over the buildings, api.py:245-274. -/
def testStored {ρ : Type} (cfg : ExpCfg ρ) (k : LoadCfg) : List StoredBuilding → ExpState ρ → Except Err (ExpState ρ)
  | [], st => .ok st
  | b :: bs, st =>
    match testFrames k b with
    | .error e => .error e
    | .ok eb =>
      match testBuilding cfg eb st with
      | .error e => .error e
      | .ok st' => testStored cfg k bs st'

/-- `API.experiment` for one method without `chunk_size` and without a stored model, api.py:49-103. The methods of `cfg` are not
used. -/
def storedExperiment {ρ σ : Type} (cfg : ExpCfg ρ) (k : LoadCfg) (name : String) (train test : List StoredBuilding) (c : Clf σ) :
    Except Err (Clf σ × ExpState ρ) :=
  match fitStored cfg k train c with
  | .error e => .error e
  | .ok c' =>
    match testStored { cfg with methods := [(name, c'.predict c'.state)] } k test ⟨[], [], []⟩ with
    | .error e => .error e
    | .ok st => .ok (c', st)

/-- `Mean.disaggregate_chunk([mains])` and `pd.concat`, mean.py:30-39 with api.py:373-378. -/
def meanMethod (m : MeanModel) : Method := fun mains =>
  match meanFrame (mains.map Prod.fst) m with
  | .error e => .error e
  | .ok cols => .ok (cols.map (fun c => (c.1, c.2.map (fun r => some r.2))))

end Nilmtk
