import Verif.Model.HartDisagg
import Verif.Model.LegacyDisag
/-!
Model of `nilmtk/legacy/disaggregate/hart_85.py` (`train`, `disaggregate_chunk`, `disaggregate`) and of
`find_steady_states_transients` in `nilmtk/feature_detectors/steady_states.py`. Training and disaggregation are for one column of
active or apparent power. `PairBuffer`, `pair` and `assign_power_from_states` have the same text as in
`nilmtk/disaggregate/hart_85.py`; their models (`Model/Hart.lean`, `Model/HartDisagg.lean`) are used. So is
`_save_metadata_for_disaggregation` (`Model/LegacyDisag.lean`).

`MeanShift` and the chunks that the meters load are inputs. Numbers are exact (the conversion to float32 is not modelled). The
chained assignment `states.loc[t][i] = v` is taken as effective. Printing, `self.pair_df`, `self.power_dict` and `best_matched_appliance`,
which only prints, are left out.
-/
namespace Nilmtk

/-- A chunk of `meter.load(columns=...)`: times and columns; `none` is NaN. -/
abbrev LoadChunk := List (Int × List (Option Rat))

/-- `power_df.dropna()`, steady_states.py:24. -/
def dropMissing (k : LoadChunk) : List PowerRow := k.filterMap (fun r => (r.2.mapM id).map (fun xs => (r.1, xs)))

/-- The loop over the chunks, steady_states.py:15-32. -/
def transientLoop (m : Nat) (threshold noise : Rat) :
    List LoadChunk → List (List (Int × List Rat) × List (Int × List Rat)) →
      Except Err (List (List (Int × List Rat) × List (Int × List Rat)))
  | [], acc => .ok acc
  | k :: ks, acc =>
    if dropMissing k = [] then transientLoop m threshold noise ks acc
    else
      match findSteadyStates m threshold noise (dropMissing k) with
      | .error e => .error e
      | .ok r => transientLoop m threshold noise ks (acc ++ [r])

/-- `find_steady_states_transients`, steady_states.py:5-33: `pd.concat` of nothing raises `ValueError`. `m` is the number of
columns. -/
def findTransients (m : Nat) (threshold noise : Rat) (chunks : Gen LoadChunk) :
    Except Err (List (Int × List Rat) × List (Int × List Rat)) :=
  match transientLoop m threshold noise chunks.out [] with
  | .error e => .error e
  | .ok l =>
    match chunks.err with
    | some e => .error e
    | none => if l = [] then .error .valueError else .ok (l.flatMap Prod.fst, l.flatMap Prod.snd)

/-- The transients for one column, as pairs. -/
def legacyEdges (threshold noise : Rat) (chunks : Gen LoadChunk) : Except Err (List (Int × Rat)) :=
  match findTransients 1 threshold noise chunks with
  | .error e => .error e
  | .ok (_, tr) => .ok (tr.map (fun e => (e.1, e.2.headD 0)))

/-- A `Hart85` object: `state_threshold`, `noise_level`, `centroids`, and whether `model` is not empty. -/
structure LegacyHart where
  threshold : Rat
  noise : Rat
  centroids : List Rat
  trained : Bool
  deriving DecidableEq, Repr

/-- `__init__`, hart_85.py:202-204. The attributes other than `model` are not there yet; they are not looked at while `model` is
empty. -/
def LegacyHart.init : LegacyHart := ⟨0, 0, [], false⟩

/-- `train`, hart_85.py:206-257, given `MeanShift`. The two levels are set first. Without a transient the frame has no columns and
`PairBuffer` (hart_85.py:51-63) has no `pair_columns`. -/
def LegacyHart.train (prm : HartParams) (meanShift : List Rat → Except Err (List Rat)) (h : LegacyHart) (threshold noise : Rat)
    (chunks : Gen LoadChunk) : LegacyHart × Except Err Unit :=
  let h := { h with threshold := threshold, noise := noise }
  match legacyEdges threshold noise chunks with
  | .error e => (h, .error e)
  | .ok tr =>
    if tr = [] then (h, .error .attributeError)
    else
      match meanShift ((hartPair prm (tr.map (fun e => ⟨e.1, e.2, none⟩))).pairs.map pairFeature) with
      | .error e => (h, .error e)
      | .ok cs => ({ h with centroids := cs, trained := true }, .ok ())

/-- What the loop of `disaggregate` keeps: the store, `timeframes`, `measurement`, `data_is_available` and `power_df`. -/
structure LegacyHartState where
  store : DisagStore
  timeframes : List TF
  measurement : Option (String × String)
  available : Bool
  power : Option (List Int × List (List Int))

/-- The loop over the learnt meters, hart_85.py:480-487; `m` counts them. -/
def appendTraces (building : Nat) (times : List Int) :
    List (List Int) → Nat → LegacyHartState → LegacyHartState × Except Err Unit
  | [], _, s => (s, .ok ())
  | tr :: trs, m, s =>
    let s := { s with available := true }
    match hdfAppend s.store (outMeterKey building (m + 2)) (List.zip times (tr.map (fun x : Int => some (x : Rat)))) with
    | .error e => (s, .error e)
    | .ok store => appendTraces building times trs (m + 1) { s with store := store }

/-- The loop over the chunks of `mains.power_series`, hart_85.py:465-488. `disaggregate_chunk` (hart_85.py:278-337) is `hartTraces`: the
argument `prev` is replaced before it is used. -/
def legacyHartLoop (building : Nat) (cs : List Rat) (tr : List (Int × Rat)) :
    List PowerChunk → LegacyHartState → LegacyHartState × Except Err Unit
  | [], s => (s, .ok ())
  | k :: ks, s =>
    let s := { s with timeframes := s.timeframes ++ [k.frame], measurement := some k.measurement }
    match hartTraces cs (k.rows.map Prod.fst) tr with
    | .error e => (s, .error e)
    | .ok traces =>
      let s := { s with power := some (k.rows.map Prod.fst, traces) }
      match appendTraces building (k.rows.map Prod.fst) traces 0 s with
      | (s', .error e) => (s', .error e)
      | (s', .ok ()) => legacyHartLoop building cs tr ks s'

/-- Saving the metadata if there are data, hart_85.py:501-510. -/
def legacyHartSave (building num : Nat) (samplePeriod : Int) (s : LegacyHartState) (store : DisagStore) : DisagStore × Except Err Unit :=
  if s.available then
    match s.measurement with
    | none => (store, .error .unboundLocal)
    | some ms => saveDisagMetadata store "Hart85" samplePeriod ms s.timeframes building (.unsupervised num)
  else (store, .ok ())

/-- The mains, the metadata and the return value, hart_85.py:490-511: `chunk_df` is the last chunk of `mains.load(ac_type=...)`. -/
def legacyHartFinish (building num : Nat) (samplePeriod : Int) (mains : Gen (List (Row (Option Rat)))) (s : LegacyHartState) :
    DisagStore × Except Err (List Int × List (List Int)) :=
  match mains.err with
  | some e => (s.store, .error e)
  | none =>
    match mains.out.getLast? with
    | none => (s.store, .error .unboundLocal)
    | some chunk =>
      match hdfAppend s.store (outMeterKey building 1) chunk with
      | .error e => (s.store, .error e)
      | .ok store =>
        match legacyHartSave building num samplePeriod s store with
        | (store', .error e) => (store', .error e)
        | (store', .ok ()) =>
          match s.power with
          | none => (store', .error .unboundLocal)
          | some p => (store', .ok p)

/-- `disaggregate`, hart_85.py:422-511: `loaded` are the chunks of `mains.load(columns=...)`, `series` those of
`mains.power_series(...)` and `mains` those of `mains.load(ac_type=...)`. The store afterwards, and the times and traces returned. -/
def LegacyHart.disaggregate (h : LegacyHart) (samplePeriod : Int) (building : Nat) (loaded : Gen LoadChunk)
    (series : Gen PowerChunk) (mains : Gen (List (Row (Option Rat)))) (store : DisagStore) :
    DisagStore × Except Err (List Int × List (List Int)) :=
  if h.trained = false then (store, .error .runtimeError)
  else
    match legacyEdges h.threshold h.noise loaded with
    | .error e => (store, .error e)
    | .ok tr =>
      match legacyHartLoop building h.centroids tr series.out ⟨store, [], none, false, none⟩ with
      | (s, .error e) => (s.store, .error e)
      | (s, .ok ()) =>
        match series.err with
        | some e => (s.store, .error e)
        | none => legacyHartFinish building h.centroids.length samplePeriod mains s

end Nilmtk
