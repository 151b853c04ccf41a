import Verif.Model.MleStore
/-!
Model of all of `MLE.disaggregate`, `nilmtk/legacy/disaggregate/maximum_likelihood_estimation.py:315-456`, with the metadata. Names of the output that
have the date in them are left out, as are empty `preprocessing_applied`.
-/
namespace Nilmtk

/-- The submeter and appliance that lines 424-448 describe, whatever the model is for. -/
def mleKettle (building : Nat) : SubMeter := ⟨2, building, "", [("kettle", 1)], some "kettle"⟩

/-- `disaggregate`, lines 315-456. The metadata of lines 374-456 are those of `_save_metadata_for_disaggregation`, with a sample period of 10 seconds
(line 376) and the measurement of the last chunk. -/
def mleFull (sort : List MleDet → List MleDet) (m : MleModel (String × String)) (resample : List (Row (Option Rat)) → List MleRow) (building : Nat)
    (mains : Gen PowerChunk) (store : DisagStore) : DisagStore × Except Err Unit :=
  match mleMains sort m resample building mains store with
  | (store, .error e) => (store, .error e)
  | (store, .ok ()) =>
    match mains.out.getLast? with
    | none => (store, .error .unboundLocal)
    | some last =>
      saveDisagMetadata store "MLE" 10 last.measurement (mains.out.map PowerChunk.frame) building (.supervised [mleKettle building])

end Nilmtk
