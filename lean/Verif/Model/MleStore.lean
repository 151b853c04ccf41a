import Verif.Model.MleDisag
import Verif.Model.LegacyDisag
/-!
Model of the data that `MLE.disaggregate` writes, `nilmtk/legacy/disaggregate/maximum_likelihood_estimation.py:315-456`. The resampling of a chunk is an
input (`resample`). Of the metadata that are written at the end only that they need a chunk is modelled.
-/
namespace Nilmtk

/-- The loop over the chunks, lines 339-360: the store afterwards. -/
def mleStoreLoop (sort : List MleDet → List MleDet) (m : MleModel (String × String)) (resample : List (Row (Option Rat)) → List MleRow) (building : Nat) :
    List PowerChunk → DisagStore → DisagStore × Except Err Unit
  | [], store => (store, .ok ())
  | k :: ks, store =>
    match mleDisaggregate sort m k.measurement (resample k.rows) with
    | .error e => (store, .error e)
    | .ok out =>
      match hdfAppend store (outMeterKey building 2) (out.map (fun r => (r.1, some r.2))) with
      | .error e => (store, .error e)
      | .ok store =>
        match hdfAppend store (outMeterKey building 1) k.rows with
        | .error e => (store, .error e)
        | .ok store => mleStoreLoop sort m resample building ks store

/-- `disaggregate`, lines 315-456, up to the metadata, which use the name `measurement` that only a chunk gives a value (line 386). -/
def mleMains (sort : List MleDet → List MleDet) (m : MleModel (String × String)) (resample : List (Row (Option Rat)) → List MleRow) (building : Nat)
    (mains : Gen PowerChunk) (store : DisagStore) : DisagStore × Except Err Unit :=
  match mleStoreLoop sort m resample building mains.out store with
  | (store, .error e) => (store, .error e)
  | (store, .ok ()) =>
    match mains.err with
    | some e => (store, .error e)
    | none => if mains.out = [] then (store, .error .unboundLocal) else (store, .ok ())

end Nilmtk
