import Verif.Model.ApiDropna
import Verif.Model.CO
import Verif.Model.Dropout
import Mathlib.Data.List.Dedup
/-!
Model of the experiment run by `API`, `nilmtk/api.py`: `train_jointly`, `test_jointly`, `test_chunk_wise`, `call_predict`, `predict`
and `compute_loss`.

The trained method is a function from the mains frame to its predictions, a loss is a function of two columns; printing and
plotting are not modelled, nor is the rounding to float32.
-/
namespace Nilmtk

/-- A list comprehension whose body may raise. -/
def mapE {α β : Type} (f : α → Except Err β) : List α → Except Err (List β)
  | [] => .ok []
  | x :: xs =>
    match f x with
    | .error e => .error e
    | .ok y =>
      match mapE f xs with
      | .error e => .error e
      | .ok ys => .ok (y :: ys)

/-- A `pd.Series`. -/
abbrev GtSeries := List (Int × Option Rat)

/-- A named column of values. -/
abbrev PColumns := List (String × List (Option Rat))

/-- `pd.DataFrame` with named columns. -/
structure PFrame where
  index : List Int
  cols : PColumns
  deriving DecidableEq, Repr

/-- `pd.Series(df.values.flatten(), index=df.index)`, api.py:382-384: `ValueError` when there is not one value per row.
`pd.concat(data, axis=1)` of the single frame in `data` is that frame. -/
def flattenSeries (f : RowFrame) : Except Err GtSeries :=
  let vals := (f.map Prod.snd).flatten
  if vals.length = f.length then .ok ((f.map Prod.fst).zip vals) else .error .valueError

/-- The loop filling `gt`, api.py:380-384. -/
def gtDict : List (String × GtSeries) → List (String × RowFrame) → Except Err (List (String × GtSeries))
  | d, [] => .ok d
  | d, (m, f) :: rest =>
    match flattenSeries f with
    | .error e => .error e
    | .ok s => gtDict (dictSet d m s) rest

/-- The index of `pd.DataFrame(dict of Series)`: the common index, or the sorted union of the indexes when they differ. -/
def overallIndex : List GtSeries → List Int
  | [] => []
  | s :: ss =>
    if ss.all (fun x => decide (x.map Prod.fst = s.map Prod.fst)) then s.map Prod.fst
    else (((s :: ss).map (fun x => x.map Prod.fst)).flatten.dedup).mergeSort (fun a b => decide (a ≤ b))

/-- One column of `pd.DataFrame(dict of Series)`: NaN where the series has no value; `ValueError` for an index with repeated labels
that has to be changed. -/
def reindexTo (ix : List Int) (s : GtSeries) : Except Err (List (Option Rat)) :=
  if s.map Prod.fst = ix then .ok (s.map Prod.snd)
  else if (s.map Prod.fst).Nodup then
    .ok (ix.map (fun t => match s.find? (fun r => r.1 == t) with
      | some r => r.2
      | none => none))
  else .error .valueError

/-- The same with the name of the column. -/
def reindexCol (ix : List Int) (e : String × GtSeries) : Except Err (String × List (Option Rat)) :=
  match reindexTo ix e.2 with
  | .error e => .error e
  | .ok c => .ok (e.1, c)

/-- `pd.DataFrame(gt)`. -/
def frameOfDict (d : List (String × GtSeries)) : Except Err PFrame :=
  let ix := overallIndex (d.map Prod.snd)
  match mapE (reindexCol ix) d with
  | .error e => .error e
  | .ok cs => .ok ⟨ix, cs⟩

/-- `gt_overall` of `predict`, api.py:380-386. -/
def gtOverall (subs : List (String × RowFrame)) : Except Err PFrame :=
  match gtDict [] subs with
  | .error e => .error e
  | .ok d => frameOfDict d

/-- The loop at api.py:399-403: predictions beyond the length of the ground truth are cut off, the rest takes the index of the
ground truth; too few predictions are a `ValueError`, an appliance that is not in the ground truth a `KeyError`. -/
def predColumns (g : PFrame) (out : PColumns) : Except Err PColumns :=
  mapE (fun e =>
    match g.cols.lookup e.1 with
    | none => .error .keyError
    | some _ =>
      let v := e.2.take g.index.length
      if v.length = g.index.length then .ok (e.1, v) else .error .valueError) out

/-- A trained method: `disaggregate_chunk([mains])` followed by `pd.concat`, api.py:373-378. -/
abbrev Method := RowFrame → Except Err PColumns

/-- `API.predict`, api.py:363-406. -/
def apiPredict (siteOnly : Bool) (clf : Method) (mains : RowFrame) (subs : List (String × RowFrame)) :
    Except Err (PFrame × PColumns) :=
  match clf mains with
  | .error e => .error e
  | .ok out =>
    match gtOverall subs with
    | .error e => .error e
    | .ok g =>
      if siteOnly then .ok (g, out)
      else
        match predColumns g out with
        | .error e => .error e
        | .ok p => .ok (g, p)

/-- `API.compute_loss`, api.py:410-414. -/
def computeLoss {ρ : Type} (loss : List (Option Rat) → List (Option Rat) → Except Err ρ) (g : PFrame) (pred : PColumns) :
    Except Err (List (String × ρ)) :=
  mapE (fun e =>
    match pred.lookup e.1 with
    | none => .error .keyError
    | some p =>
      match loss e.2 p with
      | .error x => .error x
      | .ok r => .ok (e.1, r)) g.cols

/-- The parameters of the experiment. `losses` is what `globals()[metric]` finds, `none` for a name that is not defined. -/
structure ExpCfg (ρ : Type) where
  appliances : List String
  methods : List (String × Method)
  metrics : List String
  losses : String → Option (List (Option Rat) → List (Option Rat) → Except Err ρ)
  dropAllNans : Bool
  artificial : Bool
  siteOnly : Bool

/-- The part of the object that testing changes: `test_submeters`, and `errors` with `errors_keys`. An entry of `errors` is a
table: for each method, the loss of each appliance. -/
structure ExpState (ρ : Type) where
  subs : List (String × RowFrame)
  errors : List (List (String × List (String × ρ)))
  keys : List String

/-- The first loop of `call_predict`, api.py:320-323. -/
def predictAll {ρ : Type} (cfg : ExpCfg ρ) (mains : RowFrame) (subs : List (String × RowFrame)) :
    List (String × Method) → Option PFrame → List (String × PColumns) → Except Err (Option PFrame × List (String × PColumns))
  | [], g, ps => .ok (g, ps)
  | (n, clf) :: rest, _, ps =>
    match apiPredict cfg.siteOnly clf mains subs with
    | .error e => .error e
    | .ok (g, p) => predictAll cfg mains subs rest (some g) (dictSet ps n p)

/-- The loop `for clf_name, clf in classifiers`, api.py:338-340. -/
def metricTable {ρ : Type} (loss : List (Option Rat) → List (Option Rat) → Except Err ρ) (g : PFrame) (ps : List (String × PColumns))
    (methods : List (String × Method)) : Except Err (List (String × List (String × ρ))) :=
  mapE (fun m =>
    match ps.lookup m.1 with
    | none => .error .keyError
    | some p =>
      match computeLoss loss g p with
      | .error e => .error e
      | .ok t => .ok (m.1, t)) methods

/-- The loop over the metrics, api.py:331-345: an unknown metric is skipped. -/
def metricLoop {ρ : Type} (cfg : ExpCfg ρ) (key : String) (g : PFrame) (ps : List (String × PColumns)) :
    List String → ExpState ρ → Except Err (ExpState ρ)
  | [], st => .ok st
  | m :: ms, st =>
    match cfg.losses m with
    | none => metricLoop cfg key g ps ms st
    | some loss =>
      match metricTable loss g ps cfg.methods with
      | .error e => .error e
      | .ok t => metricLoop cfg key g ps ms { st with errors := st.errors ++ [t], keys := st.keys ++ [key ++ "_" ++ m] }

/-- `API.call_predict`, api.py:314-361. Without any method `gt_overall` is the dictionary `{}`, which has no `size`. -/
def callPredict {ρ : Type} (cfg : ExpCfg ρ) (key : String) (mains : RowFrame) (st : ExpState ρ) : Except Err (ExpState ρ) :=
  match predictAll cfg mains st.subs cfg.methods none [] with
  | .error e => .error e
  | .ok (g, ps) =>
    if cfg.siteOnly then .ok st
    else
      match g with
      | none => .error .attributeError
      | some g =>
        if g.index.length * g.cols.length = 0 then .ok st
        else metricLoop cfg key g ps cfg.metrics st

/-- The row for label `t` of the sum of two frames: NaN if the label is missing in one of them. -/
def addedRow (a b : RowFrame) (t : Int) : Int × List (Option Rat) :=
  match a.find? (fun r => r.1 == t), b.find? (fun r => r.1 == t) with
  | some x, some y => (t, List.zipWith nanAdd x.2 y.2)
  | some x, none => (t, x.2.map (fun _ => none))
  | none, some y => (t, y.2.map (fun _ => none))
  | none, none => (t, [])

/-- `a += b` for two frames with the same columns: rows are matched by label, a label missing in one of them gives NaN.
Simplification: indexes without repeated labels when they differ. -/
def frameAdd (a b : RowFrame) : RowFrame :=
  if a.map Prod.fst = b.map Prod.fst then List.zipWith (fun x y => (x.1, List.zipWith nanAdd x.2 y.2)) a b
  else
    ((a.map Prod.fst ++ b.map Prod.fst).dedup.mergeSort (fun s t => decide (s ≤ t))).map (addedRow a b)

/-- The artificial aggregate, api.py:181-185, 224-228, 264-268. -/
def artificialAggregate : List RowFrame → Except Err RowFrame
  | [] => .error .indexError
  | a :: as => .ok ((a :: as).foldl frameAdd (a.map (fun r => (r.1, r.2.map (fun _ => some 0)))))

/-- What happens to the loaded frames before training or testing, api.py:178-185, 221-228, 261-268. -/
def prepare {ρ : Type} (cfg : ExpCfg ρ) (mains : RowFrame) (apps : List RowFrame) : Except Err (RowFrame × List RowFrame) :=
  match (if cfg.dropAllNans then
      match apiDropna mains apps with
      | .error e => .error e
      | .ok (m, as, _) => .ok (m, as)
    else .ok (mains, apps) : Except Err (RowFrame × List RowFrame)) with
  | .error e => .error e
  | .ok (m, as) =>
    if cfg.artificial then
      match artificialAggregate as with
      | .error e => .error e
      | .ok agg => .ok (agg, as)
    else .ok (m, as)

/-- A building of the test set: the key `str(dataset) + "_" + str(building)`, the first chunk of its mains, and the first chunk of
each appliance by name. -/
structure ExpBuilding where
  key : String
  mains : RowFrame
  load : String → Except Err RowFrame

/-- The body of the loop in `test_jointly`, api.py:249-274. `self.test_submeters` is only ever appended to. -/
def testBuilding {ρ : Type} (cfg : ExpCfg ρ) (b : ExpBuilding) (st : ExpState ρ) : Except Err (ExpState ρ) :=
  if cfg.siteOnly then
    match (if cfg.dropAllNans then
        match apiDropna b.mains [] with
        | .error e => .error e
        | .ok (m, _, _) => .ok m
      else .ok b.mains : Except Err RowFrame) with
    | .error e => .error e
    | .ok m => callPredict cfg b.key m st
  else
    match mapE b.load cfg.appliances with
    | .error e => .error e
    | .ok apps =>
      match prepare cfg b.mains apps with
      | .error e => .error e
      | .ok (m, as) => callPredict cfg b.key m { st with subs := st.subs ++ cfg.appliances.zip as }

/-- `API.test_jointly`, api.py:243-274. -/
def testJointly {ρ : Type} (cfg : ExpCfg ρ) : List ExpBuilding → ExpState ρ → Except Err (ExpState ρ)
  | [], st => .ok st
  | b :: bs, st =>
    match testBuilding cfg b st with
    | .error e => .error e
    | .ok st' => testJointly cfg bs st'

/-- The chunks taken together in one round of the loop at api.py:167-176 (and 123-134): the next chunk of the mains, and the next
chunk of every appliance, or an empty frame for an appliance without further chunks. -/
def chunkRounds : List RowFrame → List (List RowFrame) → List (RowFrame × List RowFrame)
  | [], _ => []
  | m :: ms, apps => (m, apps.map (fun l => l.headD [])) :: chunkRounds ms (apps.map List.tail)

/-- The rounds of `test_chunk_wise`, api.py:167-196; `k` is `chunk_num`. -/
def testRounds {ρ : Type} (cfg : ExpCfg ρ) (key : String) :
    List (RowFrame × List RowFrame) → Nat → ExpState ρ → Except Err (ExpState ρ)
  | [], _, st => .ok st
  | (m, apps) :: rest, k, st =>
    match prepare cfg m apps with
    | .error e => .error e
    | .ok (m', as) =>
      match callPredict cfg (key ++ "_" ++ toString k) m' { st with subs := cfg.appliances.zip as } with
      | .error e => .error e
      | .ok st' => testRounds cfg key rest (k + 1) st'

/-- A building tested in chunks: the chunks of its mains and of each appliance. -/
structure ChunkedBuilding where
  key : String
  mains : List RowFrame
  load : String → Except Err (List RowFrame)

/-- `API.test_chunk_wise`, api.py:156-196. -/
def testChunkWise {ρ : Type} (cfg : ExpCfg ρ) : List ChunkedBuilding → ExpState ρ → Except Err (ExpState ρ)
  | [], st => .ok st
  | b :: bs, st =>
    match mapE b.load cfg.appliances with
    | .error e => .error e
    | .ok apps =>
      match testRounds cfg b.key (chunkRounds b.mains apps) 0 st with
      | .error e => .error e
      | .ok st' => testChunkWise cfg bs st'

/-- The loop of `train_jointly`, api.py:206-232: `self.train_mains` and `self.train_submeters` (one list per position in
`self.appliances`). -/
def trainLoop {ρ : Type} (cfg : ExpCfg ρ) :
    List ExpBuilding → List RowFrame → List (List RowFrame) → Except Err (List RowFrame × List (List RowFrame))
  | [], ms, subs => .ok (ms, subs)
  | b :: bs, ms, subs =>
    match mapE b.load cfg.appliances with
    | .error e => .error e
    | .ok apps =>
      match prepare cfg b.mains apps with
      | .error e => .error e
      | .ok (m, as) => trainLoop cfg bs (ms ++ [m]) (List.zipWith (fun l f => l ++ [f]) subs as)

/-- `API.train_jointly`, api.py:199-240: the arguments passed to `partial_fit`. The frames in `ExpBuilding` are those cut to their
first column, api.py:213, 218. -/
def trainJointly {ρ : Type} (cfg : ExpCfg ρ) (bs : List ExpBuilding) :
    Except Err (List RowFrame × List (String × List RowFrame)) :=
  match trainLoop cfg bs [] (cfg.appliances.map (fun _ => [])) with
  | .error e => .error e
  | .ok (ms, subs) => .ok (ms, cfg.appliances.zip subs)

end Nilmtk
