import Verif.Model.Cache
import Verif.Model.Measurement
import Verif.Model.Redd
/-!
Model of `ElecMeter.total_energy` of a meter in an HDF store from the table to the result: `nilmtk/elecmeter.py:580-596`,
`636-768`, with `nilmtk/preprocessing/clip.py` and `nilmtk/stats/totalenergy.py`.

Nothing is in the cache (for the cache see `Model/Cache.lean`), and no `ac_type`, `physical_quantity`, `columns` or
`preprocessing` is given. Simplification: tables have one column, as the converter of REDD writes them.
-/
namespace Nilmtk

/-- The physical quantities by name, measurement.py:9-11. -/
def pqNamed (s : String) : PQ :=
  if s = "power" then .power
  else if s = "energy" then .energy
  else if s = "cumulative energy" then .cumulativeEnergy
  else .other 0

/-- The AC types by name, measurement.py:5. -/
def acNamed (s : String) : AC :=
  if s = "active" then .active
  else if s = "apparent" then .apparent
  else if s = "reactive" then .reactive
  else .other 0

/-- `HDFDataStore.get_timeframe`, hdfdatastore.py:215-226, of a table. -/
def tableTimeframe {α : Type} (rows : List (Row α)) (window : TF) : Except Err TF :=
  match rows.head?, rows.getLast? with
  | some a, some b =>
    match TF.ctor (some a.1) (some b.1) with
    | .error e => .error e
    | .ok tf => .ok (window.intersection tf)
  | _, _ => .error .indexError

/-- The sections to compute, elecmeter.py:676-683, `sorted(set(sections))` as nothing is cached, elecmeter.py:691-700. -/
def statSections {α : Type} (rows : List (Row α)) (window : TF) (sections : Option (List TF)) : Except Err (List TF) :=
  match sections with
  | some l => sectionsToCompute (l.filter (fun s => !s.empty)) ([] : List (RRow Unit))
  | none =>
    match tableTimeframe rows window with
    | .error e => .error e
    | .ok tf => sectionsToCompute ([{ tf with includeEnd := true }].filter (fun s => !s.empty)) ([] : List (RRow Unit))

/-- The columns of a chunk: those asked for (elecmeter.py:529-530, 576-577) that the table has; a chunk without rows is
`pd.DataFrame()`, which has none. -/
def chunkColumns (ms : List Measurement) (columns : List Col) (rows : List (Row (Option Rat))) : List VCol :=
  if rows = [] then []
  else (columns.filter (fun c => c ∈ availableColumns ms)).map (fun c => (c, rows.map Prod.snd))

/-- What `Clip` and `TotalEnergy` do with a chunk, clip.py:31-41 and stats/totalenergy.py:25. -/
def chunkEnergy (ms : List Measurement) (msp : Rat) (columns : List Col) (rows : List (Row (Option Rat))) :
    Except Err ChunkEnergy :=
  getTotalEnergy msp ((clipChunk none none ms (chunkColumns ms columns rows)).map
    (fun v => ((pqNamed v.1.1, acNamed v.1.2), (rows.map Prod.fst).zip v.2)))

/-- `TotalEnergy.process`, stats/totalenergy.py:18-29, over the chunks. -/
def energyOfChunks (ms : List Measurement) (msp : Rat) (columns : List Col) :
    TEResults → List (Chunk (Option Rat)) → Except Err TEResults
  | acc, [] => .ok acc
  | acc, c :: cs =>
    match chunkEnergy ms msp columns c.rows with
    | .error e => .error e
    | .ok energy =>
      match acc.append c.timeframe energy with
      | .error e => .error e
      | .ok acc' => energyOfChunks ms msp columns acc' cs

/-- `_compute_stat`, elecmeter.py:746-768, and `results_obj.update`, elecmeter.py:716. -/
def computeEnergy (t : RawTable (Option Rat)) (ms : List Measurement) (msp : Rat) (window : TF) (sections : List TF)
    (cs : Int) : Except Err TEResults :=
  match energyOfChunks ms msp t.columns ⟨[], []⟩ (hdfLoad (some t.rows) window (some sections) 0 cs).1.out with
  | .error e => .error e
  | .ok computed =>
    match (hdfLoad (some t.rows) window (some sections) 0 cs).1.err with
    | some e => .error e
    | none => TEResults.update ⟨[], []⟩ computed

/-- `ElecMeter.total_energy`, elecmeter.py:581-595, 636-744: the table is that of the meter's key (`none` if there is none),
`ms` are the measurements and `msp` is the `max_sample_period` of its device. -/
def meterTotalEnergy (t : Option (RawTable (Option Rat))) (ms : List Measurement) (msp : Rat) (window : TF)
    (sections : Option (List TF)) (cs : Int) : Except Err (List (AC × Rat)) :=
  match t with
  | none => .error .keyError
  | some t =>
    match statSections t.rows window sections with
    | .error e => .error e
    | .ok [] => .ok []
    | .ok (s :: ss) =>
      match computeEnergy t ms msp window (s :: ss) cs with
      | .error e => .error e
      | .ok results => .ok results.combined

end Nilmtk
