import Verif.Model.FHMM
import Verif.Model.CO
import Verif.Model.Experiment
/-!
Model of `FHMMExact.partial_fit`, `create_combined_hmm` and `FHMMExact.disaggregate_chunk`
(nilmtk/disaggregate/fhmm_exact.py).

Training and decoding of a single hidden Markov model, `hmm.GaussianHMM.fit` and `predict` of hmmlearn, and `cluster` are
inputs. Not modelled: what is left in the object by a call that raises, printing, models of more than one dimension.
-/
namespace Nilmtk

/-- The combined model; its covariances are constant (fhmm_exact.py:90). -/
structure Combined where
  start : List Rat
  trans : List (List Rat)
  means : List Rat
  deriving DecidableEq, Repr

/-- The libraries: `GaussianHMM(n).fit(X)`, `len(cluster(X, max_num_clusters))` and `model.predict(X)` (`none` is NaN). -/
structure HmmLib (γ : Type) where
  fit : Nat → List Rat → Except Err (Hmm γ)
  cluster : Nat → List Rat → Except Err Nat
  predict : Combined → List (Option Rat) → Except Err (List Nat)

/-- The attributes of `FHMMExact`, fhmm_exact.py:172-181: `model` is `{}` before training. -/
structure Fhmm (γ : Type) where
  appNames : List String
  individual : List (String × Hmm γ)
  model : Option Combined

/-- `pd.concat(frames, axis=0)`: `ValueError` for an empty list. -/
def fhmmConcat {α : Type} (l : List (List α)) : Except Err (List α) :=
  if l = [] then .error .valueError else .ok l.flatten

/-- `num_total_states`, fhmm_exact.py:221-228. -/
def numTotalStates {γ : Type} (lib : HmmLib γ) (numOfStates : Int) (maxClusters : Nat) (X : List Rat) : Except Err Nat :=
  if 0 < numOfStates then .ok numOfStates.toNat else lib.cluster maxClusters X

/-- The loop training the appliances, fhmm_exact.py:208-234. -/
def fhmmTrainLoop {γ : Type} (lib : HmmLib γ) (numOfStates : Int) (maxClusters : Nat) :
    List (String × Hmm γ) → List (String × List (Option Rat)) → Except Err (List (String × Hmm γ))
  | d, [] => .ok d
  | d, (name, xs) :: rest =>
    let X := xs.filterMap id
    if X = [] then fhmmTrainLoop lib numOfStates maxClusters d rest
    else
      match numTotalStates lib numOfStates maxClusters X with
      | .error e => .error e
      | .ok n =>
        match lib.fit n X with
        | .error e => .error e
        | .ok h => fhmmTrainLoop lib numOfStates maxClusters (dictSet d name h) rest

/-- Sorting the parameters of one appliance, fhmm_exact.py:244-253. -/
def sortEntry {γ : Type} (e : String × Hmm γ) : Except Err (String × Hmm γ) :=
  match sortLearnt e.2 with
  | .error err => .error err
  | .ok h => .ok (e.1, h)

/-- `create_combined_hmm`, fhmm_exact.py:111-127. -/
def createCombined {γ : Type} (d : List (String × Hmm γ)) : Except Err Combined :=
  match computePi (d.map (fun e => e.2.startprob)) with
  | .error e => .error e
  | .ok pi =>
    match computeA (d.map (fun e => e.2.transmat)) with
    | .error e => .error e
    | .ok a => .ok ⟨pi, a, computeMeans (d.map (fun e => e.2.means))⟩

/-- `max_num_clusters`, fhmm_exact.py:203-206. -/
def fhmmMaxClusters (numMeters : Nat) : Nat := if 12 < numMeters then 2 else 3

/-- `FHMMExact.partial_fit`, fhmm_exact.py:183-259. -/
def fhmmPartialFit {γ : Type} (lib : HmmLib γ) (numOfStates : Int) (self : Fhmm γ) (main : List (List (Option Rat)))
    (apps : List (String × List (List (Option Rat)))) : Except Err (Fhmm γ) :=
  match fhmmConcat main with
  | .error e => .error e
  | .ok _ =>
    match mapE (fun a : String × List (List (Option Rat)) => (fhmmConcat a.2).map (fun xs => (a.1, xs))) apps with
    | .error e => .error e
    | .ok train =>
      match fhmmTrainLoop lib numOfStates (fhmmMaxClusters train.length) [] train with
      | .error e => .error e
      | .ok learnt =>
        match mapE sortEntry learnt with
        | .error e => .error e
        | .ok individual =>
          match createCombined individual with
          | .error e => .error e
          | .ok c => .ok ⟨self.appNames ++ apps.map Prod.fst, individual, some c⟩

/-- A predicted `DataFrame`: labels of the rows, columns. -/
structure FhmmFrame where
  index : List Int
  columns : List (String × List Int)
  deriving DecidableEq, Repr

/-- The prediction for one chunk of the mains, fhmm_exact.py:281-308: a new frame, whose rows are numbered from 0. -/
def fhmmChunk {γ : Type} (lib : HmmLib γ) (self : Fhmm γ) (chunk : List (Int × Option Rat)) : Except Err FhmmFrame :=
  if chunk = [] then .ok ⟨[], self.appNames.map (fun n => (n, []))⟩
  else
    match self.model with
    | none => .error .attributeError
    | some c =>
      match lib.predict c (chunk.map Prod.snd) with
      | .error e => .error e
      | .ok states =>
        let means := self.individual.map (fun e => roundedCentroids e.2.means)
        .ok ⟨(List.range states.length).map (fun i : Nat => (i : Int)),
          (self.individual.zipIdx).map (fun e => (e.1.1, states.map (fun s => (decodePower means s).getD e.2 0)))⟩

/-- `FHMMExact.disaggregate_chunk`, fhmm_exact.py:264-310. -/
def fhmmDisaggregate {γ : Type} (lib : HmmLib γ) (self : Fhmm γ) (chunks : List (List (Int × Option Rat))) :
    Except Err (List FhmmFrame) := mapE (fhmmChunk lib self) chunks

end Nilmtk
