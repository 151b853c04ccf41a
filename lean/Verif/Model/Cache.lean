import Verif.Model.Dropout
/-!
Model of the statistics cache for `ElecMeter.total_energy`: `nilmtk/elecmeter.py:580-744` and `770-830`,
with `nilmtk/results.py:131-170`.

The cache `nilmtk.STATS_CACHE` is one table per key, shared by all meters of all datasets (elecmeter.py:56).
-/
namespace Nilmtk

/-- A meter: dataset, building and instance (a tuple for meter groups). -/
structure CMeter where
  dataset : String
  building : Nat
  inst : List Nat
  deriving DecidableEq, Repr

/-- `key_for_cached_stat`, elecmeter.py:770-793: `building<I>/elec/cache/meter<K>/total_energy`; the key is kept as the
pair of its numbers. The dataset is not in it. -/
def cacheKey (m : CMeter) : Nat × List Nat := (m.building, m.inst)

/-- `nilmtk.STATS_CACHE`: the cached tables; `none` if there is no table for the key. -/
abbrev StatsCache := Nat × List Nat → Option TEResults

/-- The energies of a chunk, `get_total_energy`. -/
abbrev ChunkEnergy := List (AC × Option Rat)

/-- A call of `total_energy`: the meter, the set of AC types of the columns asked for (empty when neither `ac_type` nor
`physical_quantity` nor `columns` is given), the sections, whether there is preprocessing, and what loading and processing
a section gives: its chunks, each with its timeframe and energies (`TotalEnergy.process`, stats/totalenergy.py:24-29). -/
structure StatReq where
  meter : CMeter
  acTypes : List AC
  sections : List TF
  preprocessing : Bool
  chunks : TF → List (TF × ChunkEnergy)

/-- `self.results.append(chunk.timeframe, energy)` for the chunks of a section, stats/totalenergy.py:26-28. -/
def appendChunks : TEResults → List (TF × ChunkEnergy) → Except Err TEResults
  | acc, [] => .ok acc
  | acc, c :: cs =>
    match acc.append c.1 c.2 with
    | .error e => .error e
    | .ok acc' => appendChunks acc' cs

/-- `_compute_stat`, elecmeter.py:746-768: the results for the sections, in order. -/
def computeStat (chunks : TF → List (TF × ChunkEnergy)) : TEResults → List TF → Except Err TEResults
  | acc, [] => .ok acc
  | acc, s :: ss =>
    match appendChunks acc (chunks s) with
    | .error e => .error e
    | .ok acc' => computeStat chunks acc' ss

/-- `get_cached_stat` and `import_from_cache`, elecmeter.py:687-688, 813-830, results.py:139-170: an empty table leaves the
results object as it is; otherwise the matching rows replace its table (a table without rows has no columns). -/
def importStat (cached : Option TEResults) (sections : List TF) : TEResults :=
  match cached with
  | none => ⟨[], []⟩
  | some t =>
    let rows := Results.importFromCache t.rows sections
    if rows.isEmpty then ⟨[], []⟩ else ⟨t.cols, rows⟩

/-- The elements of `set(sections)`: equal timeframes once. -/
def tfSet : List TF → List TF
  | [] => []
  | s :: ss => if ss.any (fun t => s.eq t) then tfSet ss else s :: tfSet ss

/-- `find_sections_to_compute`, elecmeter.py:690-695: `sorted(set(sections) - set(results_obj_timeframes))`.
Simplification: sections have a start; those with equal starts come in list order. -/
def sectionsToCompute {α : Type} (sections : List TF) (rows : List (RRow α)) : Except Err (List TF) :=
  match Results.timeframes rows with
  | .error e => .error e
  | .ok tfs =>
    .ok ((tfSet (sections.filter (fun s => !tfs.any (fun t => s.eq t)))).insertionSort
      (fun a b => a.start.getD 0 ≤ b.start.getD 0))

/-- `results_obj.update(...)`, results.py:92-110, with the columns: a column that one side lacks is NaN in its rows. -/
def TEResults.update (self other : TEResults) : Except Err TEResults :=
  if other.rows.isEmpty then .ok self
  else
    match Results.update self.rows other.rows with
    | (_, some e) => .error e
    | (rows, none) => .ok ⟨self.cols ++ other.cols.filter (fun c => c ∉ self.cols), rows⟩

/-- `self.cache.append` with the fallback, elecmeter.py:721-727: appending to a table with other columns raises
`ValueError`, and then the table is replaced by the exported results. Appending no rows does nothing. -/
def storeStat (cached : Option TEResults) (computed results : TEResults) : Option TEResults :=
  let stat := computed.exportToCache
  if stat.rows.isEmpty then cached
  else
    match cached with
    | none => some stat
    | some t =>
      if (∀ c ∈ t.cols, c ∈ stat.cols) ∧ (∀ c ∈ stat.cols, c ∈ t.cols) then some ⟨t.cols, t.rows ++ stat.rows⟩
      else some results.exportToCache

/-- The part of `_get_stat_from_cache_or_compute` that chooses between cache and computation, elecmeter.py:686-708: the
results taken from the cache and the sections still to compute. -/
def planStat (cached : Option TEResults) (acTypes : List AC) (sections : List TF) (preprocessing : Bool) :
    Except Err (TEResults × List TF) :=
  if preprocessing then .ok (⟨[], []⟩, sections)
  else
    let results := importStat cached sections
    if ∀ c ∈ acTypes, c ∈ results.cols then
      match sectionsToCompute sections results.rows with
      | .error e => .error e
      | .ok ss => .ok (results, ss)
    else .ok (⟨[], []⟩, sections)

/-- `_get_stat_from_cache_or_compute(full_results=True)`, elecmeter.py:636-731, for one table of the cache: the new table
and the results object. -/
def fullStat (cached : Option TEResults) (r : StatReq) : Option TEResults × Except Err TEResults :=
  let sections := r.sections.filter (fun s => !s.empty)
  match planStat cached r.acTypes sections r.preprocessing with
  | .error e => (cached, .error e)
  | .ok (results, []) => (cached, .ok results)
  | .ok (results, s :: ss) =>
    match computeStat r.chunks ⟨[], []⟩ (s :: ss) with
    | .error e => (cached, .error e)
    | .ok computed =>
      match results.update computed with
      | .error e => (cached, .error e)
      | .ok results' => (storeStat cached computed results', .ok results')

/-- `res[list(ac_types)]`, elecmeter.py:741: `KeyError` if one is missing. -/
def pickTypes (res : List (AC × Rat)) : List AC → Except Err (List (AC × Rat))
  | [] => .ok []
  | c :: cs =>
    match res.lookup c with
    | none => .error .keyError
    | some v =>
      match pickTypes res cs with
      | .error e => .error e
      | .ok l => .ok ((c, v) :: l)

/-- What the call returns without `full_results`, elecmeter.py:732-744. -/
def simpleStat (acTypes : List AC) (results : TEResults) : Except Err (List (AC × Rat)) :=
  if acTypes = [] then .ok results.combined
  else if results.combined = [] then .ok []
  else pickTypes results.combined acTypes

/-- A call of `total_energy`, elecmeter.py:580-596: the cache afterwards and the value. -/
def totalEnergyCall (cache : StatsCache) (r : StatReq) : StatsCache × Except Err (List (AC × Rat)) :=
  let out := fullStat (cache (cacheKey r.meter)) r
  (fun k => if k = cacheKey r.meter then out.1 else cache k,
    match out.2 with
    | .error e => .error e
    | .ok results => simpleStat r.acTypes results)

/-- `clear_cache`, elecmeter.py:795-811: the tables of the meter are removed. -/
def clearCache (cache : StatsCache) (m : CMeter) : StatsCache :=
  fun k => if k = cacheKey m then none else cache k

/-- What a program does with the cache. -/
inductive CacheOp where
  | call (r : StatReq)
  | clear (m : CMeter)

/-- A history of calls: the values returned by the calls of `total_energy`. -/
def runCalls : StatsCache → List CacheOp → List (Except Err (List (AC × Rat)))
  | _, [] => []
  | cache, .call r :: ops => (totalEnergyCall cache r).2 :: runCalls (totalEnergyCall cache r).1 ops
  | cache, .clear m :: ops => runCalls (clearCache cache m) ops

end Nilmtk
