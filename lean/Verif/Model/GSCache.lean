import Verif.Model.Cache
import Verif.Model.GoodSections
/-!
Model of the statistics cache for `ElecMeter.good_sections`: `nilmtk/elecmeter.py:636-744` with
`nilmtk/stats/goodsectionsresults.py:105-144`.

One table of the cache is modelled (one meter of one building). Simplifications: the numbers and timezones the
columns pass through on their way to disk and back are exact; a table always has the same three columns, so that
`cache.append` does not raise; a request comes with the rows its computation would give.
-/
namespace Nilmtk

/-- A row of the cached table: the index and the columns `end`, `section_start`, `section_end` (`none` is `NaT`),
goodsectionsresults.py:134-144. -/
structure GSCacheRow where
  start : Int
  stop : Int
  secStart : Option Int
  secEnd : Option Int
  deriving DecidableEq, Repr

/-- The inner loop of `export_to_cache` for one row, goodsectionsresults.py:137-142. -/
def exportGSRow (r : RRow (List TF)) : List GSCacheRow :=
  r.val.map (fun f => ⟨r.start, r.stop, f.start, f.stop⟩)

/-- `GoodSectionsResults.export_to_cache`, goodsectionsresults.py:122-144: one line per section. -/
def exportGS (rows : List (RRow (List TF))) : List GSCacheRow := rows.flatMap exportGSRow

/-- The order in which the groups are visited: `groupby(level=0)` by start, then `groupby('end')`,
goodsectionsresults.py:107-111. -/
def keyLe (a b : Int × Int) : Prop := a.1 < b.1 ∨ (a.1 = b.1 ∧ a.2 ≤ b.2)

instance : DecidableRel keyLe := fun a b => by unfold keyLe; infer_instance

/-- The groups `(tf_start, tf_end)` of the cached table, goodsectionsresults.py:107-111. -/
def gsKeys (cached : List GSCacheRow) : List (Int × Int) :=
  ((cached.map (fun c => (c.start, c.stop))).dedup).insertionSort keyLe

/-- `sections_df`: the lines of a group, in table order. -/
def gsGroup (cached : List GSCacheRow) (p : Int × Int) : List GSCacheRow :=
  cached.filter (fun c => decide ((c.start, c.stop) = p))

/-- `timeframes.append(TimeFrame(section_start, section_end))` for the lines of a group,
goodsectionsresults.py:115-119. -/
def gsFrames : List GSCacheRow → Except Err (List TF)
  | [] => .ok []
  | c :: cs =>
    match TF.ctor c.secStart c.secEnd with
    | .error e => .error e
    | .ok f =>
      match gsFrames cs with
      | .error e => .error e
      | .ok fs => .ok (f :: fs)

/-- One group: `TimeFrame(tf_start, end)`, and if it is `in sections` the frames are appended,
goodsectionsresults.py:112-120. -/
def importGSKey (cached : List GSCacheRow) (sections : List TF) (acc : List (RRow (List TF))) (p : Int × Int) :
    Except Err (List (RRow (List TF))) :=
  match TF.ctor (some p.1) (some p.2) with
  | .error e => .error e
  | .ok tf =>
    if sections.any (fun s => s.eq tf) then
      match gsFrames (gsGroup cached p) with
      | .error e => .error e
      | .ok fs => Results.append acc tf fs
    else .ok acc

/-- The loops of `import_from_cache` over the groups, goodsectionsresults.py:109-120. -/
def importGSLoop (cached : List GSCacheRow) (sections : List TF) :
    List (RRow (List TF)) → List (Int × Int) → Except Err (List (RRow (List TF)))
  | acc, [] => .ok acc
  | acc, p :: ps =>
    match importGSKey cached sections acc p with
    | .error e => .error e
    | .ok acc' => importGSLoop cached sections acc' ps

/-- `GoodSectionsResults.import_from_cache` on a fresh results object, goodsectionsresults.py:105-120. -/
def importGS (cached : List GSCacheRow) (sections : List TF) : Except Err (List (RRow (List TF))) :=
  importGSLoop cached sections [] (gsKeys cached)

/-- The rows after the loop of `combined`, also when it raises: the rows before the raising one are as the loop left
them, the raising row and the later ones are untouched (goodsectionsresults.py:48-80; the assertion, the index
accesses and the setter of `end` raise before anything changes). -/
def combineRest (msp : Int) :
    List (RRow (List TF)) → Option Int → List (RRow (List TF)) → List (RRow (List TF))
  | acc, _, [] => acc
  | acc, none, row :: rows => combineRest msp (acc ++ [row]) (some row.stop) rows
  | acc, some e, row :: rows =>
    match mergeRow msp acc e row with
    | .error _ => acc ++ row :: rows
    | .ok (acc', row') => combineRest msp (acc' ++ [row']) (some row.stop) rows

/-- The rows of the results object after `combined()`, whether or not it raises, goodsectionsresults.py:37-86: if only
the last assignment raises, `include_end` of the last section is set already. -/
def afterCombined (msp : Int) (rows : List (RRow (List TF))) : List (RRow (List TF)) :=
  match combined msp rows with
  | .ok r => r.2
  | .error _ =>
    match combineLoop msp [] none rows with
    | .error _ => combineRest msp [] none rows
    | .ok (acc, _) =>
      match lastSection acc with
      | none => acc
      | some last => putLast acc { last with includeEnd := true }

/-- `_compute_stat` with the node `GoodSections`, elecmeter.py:746-768 and stats/goodsections.py:26-33: one load of all the
sections, the node run over its chunks. An exception of the load or of the node reaches the caller. -/
def gsCompute {α : Type} (msp : Int) (load : List TF → Gen (Chunk (Option α))) (sections : List TF) :
    Except Err (List (RRow (List TF))) :=
  match processChunks msp ⟨false, []⟩ (load sections).out with
  | .error e => .error e
  | .ok st =>
    match (load sections).err with
    | some e => .error e
    | none => .ok st.rows

/-- A call of `good_sections`: the sections asked for, whether there is preprocessing, and the rows that
`_compute_stat` (elecmeter.py:746-768) gives for a list of sections. -/
structure GSReq where
  sections : List TF
  preprocessing : Bool
  compute : List TF → Except Err (List (RRow (List TF)))

/-- The choice between cache and computation, elecmeter.py:684-707. `results_obj.simple()` is `combined()`, which edits
the rows; its value is a list, so `.keys()` raises and the bare `except` leads to `find_sections_to_compute`. -/
def planGS (msp : Int) (cached : List GSCacheRow) (sections : List TF) (preprocessing : Bool) :
    Except Err (List (RRow (List TF)) × List TF) :=
  if preprocessing then .ok ([], sections)
  else
    match importGS cached sections with
    | .error e => .error e
    | .ok rows =>
      match sectionsToCompute sections (afterCombined msp rows) with
      | .error e => .error e
      | .ok ss => .ok (afterCombined msp rows, ss)

/-- `res = results_obj.simple()`, elecmeter.py:732-744: `combined()` once more. -/
def simpleGS (msp : Int) (rows : List (RRow (List TF))) : Except Err (List TF) :=
  match combined msp rows with
  | .error e => .error e
  | .ok r => .ok r.1

/-- `_get_stat_from_cache_or_compute` for good sections, elecmeter.py:636-744: the cached table afterwards and the
value. What was computed is exported before the last `combined()`. -/
def gsCall (msp : Int) (cached : List GSCacheRow) (r : GSReq) : List GSCacheRow × Except Err (List TF) :=
  let sections := r.sections.filter (fun s => !s.empty)
  match planGS msp cached sections r.preprocessing with
  | .error e => (cached, .error e)
  | .ok (rows, []) => (cached, simpleGS msp rows)
  | .ok (rows, s :: ss) =>
    match r.compute (s :: ss) with
    | .error e => (cached, .error e)
    | .ok computed =>
      match Results.update rows computed with
      | (_, some e) => (cached, .error e)
      | (rows', none) => (cached ++ exportGS computed, simpleGS msp rows')

/-- A history of calls. -/
def runGS (msp : Int) : List GSCacheRow → List GSReq → List (Except Err (List TF))
  | _, [] => []
  | cached, r :: rs => (gsCall msp cached r).2 :: runGS msp (gsCall msp cached r).1 rs

/-- The same call without a cache: all sections computed and combined, elecmeter.py:713-732 with nothing cached. -/
def gsDirect (msp : Int) (r : GSReq) : Except Err (List TF) :=
  match r.compute (r.sections.filter (fun s => !s.empty)) with
  | .error e => .error e
  | .ok rows => simpleGS msp rows

end Nilmtk
