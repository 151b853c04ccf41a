import Verif.Model.Hart
import Verif.Model.SteadyStates
import Verif.Model.CO
import Verif.Model.Losses
/-!
Model of the prediction made by `Hart85`, `nilmtk/disaggregate/hart_85.py`: `partial_fit`, `disaggregate_chunk` and `min_rmse_column`,
for mains with one power column; and `partial_fit` for mains with two (`hartFitTwo`).

`MeanShift` is an input. Arithmetic is exact and the readings are not NaN. The chained assignment
`states.loc[t][i] = v` is taken as effective, and the index of a chunk has no repeated labels. `model` stores what is modelled as the fields
of `HartModel`; printing is left out.
-/
namespace Nilmtk

/-- `idxmin` of a column, and `l.index(min(l))`: the position of the first least value; `ValueError` for an empty column. -/
def idxMin : List Rat → Except Err Nat
  | [] => .error .valueError
  | x :: xs =>
    match idxMin xs with
    | .error _ => .ok 0
    | .ok j => if xs.getD j 0 < x then .ok (j + 1) else .ok 0

/-- `index_least_delta` for a transient of size `v`, hart_85.py:288-305 and 430-447. -/
def leastDelta (cs : List Rat) (v : Rat) : Except Err Nat := idxMin (cs.map (fun c => |c - abs v|))

/-- `states.loc[t][m] = v`, hart_85.py:306-311 and 448-453; the columns of `states` are lists. -/
def setState (index : List Int) (st : List (List Int)) (t : Int) (m : Nat) (v : Int) : List (List Int) :=
  st.modify m (fun col => col.set (index.idxOf t) v)

/-- The loop over the transients, hart_85.py:280-311 and 422-453. -/
def markTransients (cs : List Rat) (index : List Int) : List (Int × Rat) → List (List Int) → Except Err (List (List Int))
  | [], st => .ok st
  | (t, v) :: rest, st =>
    match index.head?, index.getLast? with
    | some a, some b =>
      if t < a then markTransients cs index rest st
      else if b < t then markTransients cs index rest st
      else
        match leastDelta cs v with
        | .error e => .error e
        | .ok m =>
          if t ∈ index then
            markTransients cs index rest (setState index st t m (if 0 < v then 1 else 0))
          else .error .keyError
    | _, _ => .error .indexError

/-- The traces of the learnt devices over a chunk, hart_85.py:277-320 and 419-461, 1d data: `states` begins as -1, `prev` is the last row of
the finished `states`. Without a transient the name `transient_tuple` is unbound. -/
def hartTraces (cs : List Rat) (index : List Int) (tr : List (Int × Rat)) : Except Err (List (List Int)) :=
  match markTransients cs index tr (cs.map (fun _ => List.replicate index.length (-1))) with
  | .error e => .error e
  | .ok st =>
    if index = [] then .error .indexError
    else if tr = [] then .error .unboundLocal
    else .ok (List.zipWith (fun col c => (assignPower col (col.getLastD (-1)) [c]).map (fun r => r.headD 0)) st cs)

/-- A chunk of mains: times and readings. -/
abbrev MainsChunk := List (Int × Rat)

/-- The transients found by `find_steady_states` in a chunk with one column, as pairs. -/
def hartEdges (threshold noise : Rat) (chunk : MainsChunk) : Except Err (List (Int × Rat)) :=
  match findSteadyStates 1 threshold noise (chunk.map (fun r => (r.1, [r.2]))) with
  | .error e => .error e
  | .ok (_, tr) => .ok (tr.map (fun e => (e.1, e.2.headD 0)))

/-- `mean_squared_error` of a trace and a column of readings. -/
def traceMse (trace : List Int) (gt : List Rat) : Except Err Rat :=
  if trace.length ≠ gt.length ∨ gt = [] then .error .valueError
  else .ok ((List.zipWith (fun (x : Int) (y : Rat) => ((x : Rat) - y) ^ 2) trace gt).sum / (gt.length : Nat))

/-- The loop filling `rmse_all`, hart_85.py:503-505; the root is left out since it does not change which entry is the least. -/
def allMse (gt : List Rat) : List (List Int) → Except Err (List Rat)
  | [] => .ok []
  | c :: cs =>
    match traceMse c gt with
    | .error e => .error e
    | .ok x =>
      match allMse gt cs with
      | .error e => .error e
      | .ok xs => .ok (x :: xs)

/-- `min_rmse_column`, hart_85.py:494-508; `n` is `len(temp_df)`. -/
def minRmseColumn (n : Nat) (traces : List (List Int)) (gt : List Rat) : Except Err Nat :=
  let traces := if gt.length < n then traces.map (fun c => c.take gt.length) else traces
  let gt := if n < gt.length then gt.take n else gt
  match allMse gt traces with
  | .error e => .error e
  | .ok l => idxMin l

/-- The loop filling `best_matches`, hart_85.py:340-349: an appliance has a list of frames, of which the first is used. -/
def matchLoop (n : Nat) (traces : List (List Int)) :
    List (String × List (List Rat)) → List (String × Nat) → Except Err (List (String × Nat))
  | [], d => .ok d
  | (_, []) :: _, _ => .error .indexError
  | (a, gt :: _) :: rest, d =>
    match minRmseColumn n traces gt with
    | .error e => .error e
    | .ok m => matchLoop n traces rest (dictSet d a m)

/-- What `partial_fit` leaves behind. -/
structure HartModel where
  appliances : List String
  threshold : Rat
  noise : Rat
  centroids : List Rat
  bestMatches : List (String × Nat)
  deriving DecidableEq, Repr

/-- The feature of a matched pair given to `MeanShift`, `nilmtk/feature_detectors/cluster.py:138-148, 160-170`. -/
def pairFeature (p : Transition × Transition) : Rat := (|p.1.p| + |p.2.p|) / 2

/-- `partial_fit`, hart_85.py:211-366, given `MeanShift`. The column of the mains is active or apparent power. Without a step the frame of transients has
no columns and `PairBuffer` (hart_85.py:51-63) has no `pair_columns`. -/
def hartFit (prm : HartParams) (threshold noise : Rat) (meanShift : List Rat → Except Err (List Rat))
    (mains : List MainsChunk) (apps : List (String × List (List Rat))) : Except Err HartModel :=
  match mains with
  | [] => .error .indexError
  | main :: _ =>
    match hartEdges threshold noise main with
    | .error e => .error e
    | .ok tr =>
      if tr = [] then .error .attributeError
      else match meanShift ((hartPair prm (tr.map (fun e => ⟨e.1, e.2, none⟩))).pairs.map pairFeature) with
      | .error e => .error e
      | .ok cs =>
        match hartTraces cs (main.map Prod.fst) tr with
        | .error e => .error e
        | .ok traces =>
          match matchLoop main.length traces apps [] with
          | .error e => .error e
          | .ok d => .ok ⟨apps.map Prod.fst, threshold, noise, cs, d⟩

/-- The loop over the transients, hart_85.py:280-311, for mains with two columns: the levels have one column (hart_85.py:250-253 and 261), so that
`self.centroids - abs_value` (line 291) cannot be aligned with the two sizes of a transient. -/
def markTwo (index : List Int) : List (Int × List Rat) → Except Err Unit
  | [] => .ok ()
  | e :: rest =>
    match index.head?, index.getLast? with
    | some a, some b =>
      if e.1 < a then markTwo index rest
      else if b < e.1 then markTwo index rest
      else .error .valueError
    | _, _ => .error .indexError

/-- `partial_fit`, hart_85.py:211-311, for mains with two columns, active and reactive power; what follows line 311 is reached only if no
transient lies in the chunk, and is left out. -/
def hartFitTwo (prm : HartParams) (threshold noise : Rat) (meanShift : List Rat → Except Err (List Rat))
    (main : List PowerRow) : Except Err Unit :=
  match findSteadyStates 2 threshold noise main with
  | .error e => .error e
  | .ok (_, tr) =>
    if tr = [] then .error .attributeError
    else match meanShift ((hartPair prm (tr.map (fun e => ⟨e.1, e.2.getD 0 0, some (e.2.getD 1 0)⟩))).pairs.map pairFeature) with
    | .error e => .error e
    | .ok _ => markTwo (main.map Prod.fst) tr

/-- A frame of predictions. -/
structure HartFrame where
  index : List Int
  cols : List (String × List Int)
  deriving DecidableEq, Repr

/-- The loop over the chunks, hart_85.py:406-481: the edges are those of the first chunk (`test_mains[0]`), and `temp_df` is replaced in every round. -/
def disaggLoop (H : HartModel) (first : MainsChunk) :
    List MainsChunk → Option (List Int × List (List Int)) → Except Err (Option (List Int × List (List Int)))
  | [], acc => .ok acc
  | c :: cs, _ =>
    match hartEdges H.threshold H.noise first with
    | .error e => .error e
    | .ok tr =>
      match hartTraces H.centroids (c.map Prod.fst) tr with
      | .error e => .error e
      | .ok traces => disaggLoop H first cs (some (c.map Prod.fst, traces))

/-- The loop filling `temp`, hart_85.py:485-488. -/
def pickTraces (H : HartModel) (traces : List (List Int)) :
    List String → List (String × List Int) → Except Err (List (String × List Int))
  | [], d => .ok d
  | a :: as, d =>
    match H.bestMatches.lookup a with
    | none => .error .keyError
    | some m =>
      match traces[m]? with
      | none => .error .keyError
      | some col => pickTraces H traces as (dictSet d a col)

/-- `disaggregate_chunk`, hart_85.py:387-492; a frame without columns has no rows. -/
def hartDisaggregate (H : HartModel) (chunks : List MainsChunk) : Except Err (List HartFrame) :=
  match disaggLoop H (chunks.headD []) chunks none with
  | .error e => .error e
  | .ok none => .error .unboundLocal
  | .ok (some (ix, traces)) =>
    match pickTraces H traces H.appliances [] with
    | .error e => .error e
    | .ok cols => .ok [⟨if cols = [] then [] else ix, cols⟩]

end Nilmtk
