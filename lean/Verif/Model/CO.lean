import Verif.Model.Utils
import Mathlib.Data.Rat.Floor
/-!
Model of `nilmtk/disaggregate/combinatorial_optimisation.py` and `nilmtk/feature_detectors/cluster.py`.

Numbers are exact (the conversions to int32 and float32 are not modelled). K-means and the silhouette score are inputs
of the model.
-/
namespace Nilmtk

/-! ### cluster.py -/

/-- `np.round`: to the nearest integer, ties to even. -/
def roundEven (x : Rat) : Int :=
  if x - ⌊x⌋ < 1 / 2 then ⌊x⌋
  else if 1 / 2 < x - ⌊x⌋ then ⌊x⌋ + 1
  else if ⌊x⌋ % 2 = 0 then ⌊x⌋ else ⌊x⌋ + 1

/-- `np.unique`: ascending, without repetitions. -/
def npUnique (l : List Int) : List Int := l.dedup.insertionSort (· ≤ ·)

/-- The end of `cluster`, cluster.py:22-25: the off state is added, then rounding, then `np.unique`. -/
def clusterStates (centroids : List Rat) : List Int := npUnique ((centroids ++ [0]).map roundEven)

/-- The loop of `_apply_clustering`, cluster.py:105-126, over the remaining values of `n_clusters`, with `num_clus` (`none`
for -1) and `sh`. `kmeans n` are the flattened cluster centres (`none` if it raises), `silhouette n` the score (`none`
if it raises). Returns the centres; `KeyError` if no clustering was chosen (cluster.py:128). -/
def applyClusteringLoop (kmeans : Nat → Option (List Rat)) (silhouette : Nat → Option Rat) :
    List Nat → Option Nat → Rat → Except Err (List Rat)
  | [], num, _ =>
    match num with
    | none => .error .keyError
    | some n =>
      match kmeans n with
      | none => .error .keyError
      | some c => .ok c
  | n :: ns, num, sh =>
    match kmeans n with
    | some _ =>
      match silhouette n with
      | some s =>
        if sh < s then applyClusteringLoop kmeans silhouette ns (some n) s
        else applyClusteringLoop kmeans silhouette ns num sh
      | none => applyClusteringLoop kmeans silhouette ns (some n) sh
    | none =>
      match num with
      | some m =>
        match kmeans m with
        | none => .error .keyError
        | some c => .ok c
      | none => .ok [0]

/-- `_apply_clustering`, cluster.py:74-128, without `exact_num_clusters`: `range(1, max_num_clusters)`. -/
def applyClustering (kmeans : Nat → Option (List Rat)) (silhouette : Nat → Option Rat) (maxNum : Nat) :
    Except Err (List Rat) :=
  applyClusteringLoop kmeans silhouette ((List.range (maxNum - 1)).map (fun i : Nat => i + 1)) none (-1)

/-- `cluster`, cluster.py:4-27. -/
def cluster (kmeans : Nat → Option (List Rat)) (silhouette : Nat → Option Rat) (maxNum : Nat) : Except Err (List Int) :=
  match applyClustering kmeans silhouette maxNum with
  | .error e => .error e
  | .ok c => .ok (clusterStates c)

/-! ### CO -/

/-- The table `state_combinations`: `shape[1]` and the rows. -/
structure Combinations where
  cols : Nat
  rows : List (List Int)
  deriving DecidableEq, Repr

/-- A `CO` object: `model` as names with states, and `state_combinations`. -/
structure CO where
  model : List (String × List Int)
  table : Option Combinations
  deriving DecidableEq, Repr

/-- `CO.__init__`, combinatorial_optimisation.py:38-47, without a saved model. -/
def CO.init : CO := ⟨[], none⟩

/-- `max_num_clusters`, combinatorial_optimisation.py:66-69. -/
def maxNumClusters (nAppliances : Nat) : Nat := if nAppliances > 12 then 2 else 3

/-- The loop of `partial_fit`, combinatorial_optimisation.py:72-85. Each appliance comes with the states `cluster`
gives for its readings; `inModel` is `appliance_in_model`, computed once before the loop. -/
def fitLoop (inModel : List String) : List (String × List Int) → List (String × List Int) → List (String × List Int)
  | [], m => m
  | a :: as, m => if a.1 ∈ inModel then fitLoop inModel as m else fitLoop inModel as (m ++ [a])

/-- `CO.partial_fit`, combinatorial_optimisation.py:49-85. -/
def CO.partialFit (c : CO) (appliances : List (String × List Int)) : CO :=
  { c with model := fitLoop (c.model.map Prod.fst) appliances c.model }

/-- `sklearn.utils.extmath.cartesian`: every combination, the first column varying slowest. -/
def cartesian : List (List Int) → List (List Int)
  | [] => [[]]
  | s :: ss => s.flatMap (fun x => (cartesian ss).map (fun r => x :: r))

/-- `_set_state_combinations_if_necessary`, combinatorial_optimisation.py:87-95; `cartesian` raises for an empty list of
arrays. -/
def CO.setCombinations (c : CO) : Except Err (CO × Combinations) :=
  let fresh : Except Err (CO × Combinations) :=
    if c.model = [] then .error .exception
    else
      let t : Combinations := ⟨c.model.length, cartesian (c.model.map Prod.snd)⟩
      .ok ({ c with table := some t }, t)
  match c.table with
  | none => fresh
  | some t => if t.cols ≠ c.model.length then fresh else .ok (c, t)

/-- `find_nearest` for one mains reading, `none` being NaN: `searchsorted` puts NaN behind all values and every comparison
with NaN is false, so `idx2` of the last position is used. -/
def nearestIndex (known : List Rat) (order : List Nat) : Option Rat → Nat
  | some x => (findNearest1 known order x).1
  | none => order.getD (known.length - 1) 0

/-- `d[k] = v` on a dictionary in insertion order. -/
def dictSet {ν : Type} (d : List (String × ν)) (k : String) (v : ν) : List (String × ν) :=
  if k ∈ d.map Prod.fst then d.map (fun e => if e.1 = k then (k, v) else e) else d ++ [(k, v)]

/-- The columns for one test frame, combinatorial_optimisation.py:149-165: `i` counts the appliances. -/
def coColumns (t : Combinations) (idx : List Nat) :
    List (String × List Int) → Nat → List (String × List Int) → List (String × List Int)
  | [], _, d => d
  | a :: as, i, d =>
    coColumns t idx as (i + 1) (dictSet d a.1 (idx.map (fun k : Nat => (t.rows.getD k []).getD i 0)))

/-- `np.sum(state_combinations, axis=1)`, combinatorial_optimisation.py:140. -/
def comboSums (t : Combinations) : List Rat := t.rows.map (fun r => ((r.sum : Int) : Rat))

/-- `CO.disaggregate_chunk`, combinatorial_optimisation.py:97-171: the object afterwards, and one frame (columns by appliance
name) per mains frame. `argsort` is what `np.argsort` returns for the sums. `find_nearest` raises `IndexError` when there is
no combination. -/
def CO.disaggregate (argsort : List Rat → List Nat) (c : CO) (mains : List (List (Option Rat))) :
    CO × Except Err (List (List (String × List Int))) :=
  match c.setCombinations with
  | .error e => (c, .error e)
  | .ok (c', t) =>
    if t.rows = [] ∧ mains.any (fun test => decide (test ≠ [])) then (c', .error .indexError)
    else (c', .ok (mains.map (fun test =>
      coColumns t (test.map (nearestIndex (comboSums t) (argsort (comboSums t)))) c'.model 0 [])))

/-- One call. -/
inductive CoCall where
  | fit (appliances : List (String × List Int))
  | disaggregate (mains : List (List (Option Rat)))

/-- A history of calls, including calls that raise. -/
def CO.run (argsort : List Rat → List Nat) : CO → List CoCall → CO
  | c, [] => c
  | c, .fit as :: h => CO.run argsort (c.partialFit as) h
  | c, .disaggregate m :: h => CO.run argsort (c.disaggregate argsort m).1 h

end Nilmtk
