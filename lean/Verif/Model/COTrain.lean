import Verif.Model.CO
/-!
Model of the training of combinatorial optimisation from readings: `partial_fit` in
nilmtk/disaggregate/combinatorial_optimisation.py and `_transform_data` in nilmtk/feature_detectors/cluster.py.

Frames have one column of readings, `none` being NaN. Random numbers, k-means and the silhouette score are inputs.
-/
namespace Nilmtk

/-- What the training takes from numpy and scikit-learn: the flattened centres and the score for the data and a number of clusters
(`none` if it raises), and `randint(0, n, 2000)`. -/
structure Sklearn where
  centres : List Rat → Nat → Option (List Rat)
  score : List Rat → Nat → Option Rat
  randint : Nat → List Nat

/-- `_transform_data`, cluster.py:30-61. -/
def transformData (lib : Sklearn) (readings : List (Option Rat)) : List Rat :=
  let above : List Rat := (readings.filterMap id).filter (fun x => decide (10 < x))
  if above.length < 20 then List.replicate 2000 0
  else if above.length > 2000 then (lib.randint above.length).map (fun i => above.getD i 0)
  else above

/-- `cluster` on readings, cluster.py:4-27. -/
def clusterReadings (lib : Sklearn) (readings : List (Option Rat)) (maxNum : Nat) : Except Err (List Int) :=
  let data := transformData lib readings
  cluster (lib.centres data) (lib.score data) maxNum

/-- The loop of `partial_fit`, combinatorial_optimisation.py:72-85; `lib i` is used for the appliance at position `i`. -/
def coFitLoop (lib : Nat → Sklearn) (maxNum : Nat) (inModel : List String) :
    List (String × List (Option Rat)) → Nat → List (String × List Int) → List (String × List Int) × Option Err
  | [], _, m => (m, none)
  | a :: as, i, m =>
    if a.1 ∈ inModel then coFitLoop lib maxNum inModel as (i + 1) m
    else
      match clusterReadings (lib i) a.2 maxNum with
      | .error e => (m, some e)
      | .ok states => coFitLoop lib maxNum inModel as (i + 1) (m ++ [(a.1, states)])

/-- `pd.concat(frames, axis=0)`: an empty list raises `ValueError`. -/
def concatReadings (frames : List (List (Option Rat))) : Except Err (List (Option Rat)) :=
  if frames = [] then .error .valueError else .ok frames.flatten

/-- The frames of every appliance joined, combinatorial_optimisation.py:57-63. -/
def concatAppliances : List (String × List (List (Option Rat))) → Except Err (List (String × List (Option Rat)))
  | [] => .ok []
  | a :: as =>
    match concatReadings a.2 with
    | .error e => .error e
    | .ok df =>
      match concatAppliances as with
      | .error e => .error e
      | .ok dfs => .ok ((a.1, df) :: dfs)

/-- `CO.partial_fit`, combinatorial_optimisation.py:49-85: the object afterwards, and the exception. -/
def CO.train (lib : Nat → Sklearn) (c : CO) (mains : List (List (Option Rat))) (appliances : List (String × List (List (Option Rat)))) :
    CO × Option Err :=
  match concatReadings mains with
  | .error e => (c, some e)
  | .ok _ =>
    match concatAppliances appliances with
    | .error e => (c, some e)
    | .ok dfs =>
      let r := coFitLoop lib (maxNumClusters dfs.length) (c.model.map Prod.fst) dfs 0 c.model
      ({ c with model := r.1 }, r.2)

end Nilmtk
