import Verif.Model.Pipeline
/-!
Model of `Node.get_metadata`, `nilmtk/node.py:72-82`: the metadata of a pipeline that was run, with the results of the nodes of the repository as
dictionaries. Values are as in `Model/Node.lean`, and the update of dictionaries is as in `Model/Pipeline.lean`.

Simplifications: an object of results is true in `if self.results`, since `Results` defines neither `__len__` nor `__bool__`; the conversion of the
results to a dictionary raises nothing.
-/
namespace Nilmtk

/-- A node that was run: its class, and `self.results.to_dict()` unless `self.results` is `None`. -/
structure NodeRun where
  cls : NodeClass
  results : Option Dict

/-- `get_metadata` of the last node, node.py:72-82, and of the meter, elecmeter.py:568-569. The nodes are given from the last to the first. -/
def getMetadata (clash : Val → Val → Except Err Val) (meter : Dict) : List NodeRun → Except Err Dict
  | [] => .ok meter
  | n :: upstream =>
    match n.results with
    | none => getMetadata clash meter upstream
    | some results =>
      match getMetadata clash meter upstream with
      | .error e => .error e
      | .ok metadata => mergeDict clash metadata results

/-- `Clip` has no class of results, clip.py:5-20 and node.py:12. -/
def clipRun : NodeRun := ⟨clipNode, none⟩

/-- `GoodSectionsResults.to_dict`, goodsectionsresults.py:95-99, of the list of good sections. -/
def goodSectionsRun (sections : Atom) : NodeRun := ⟨goodSectionsNode, some (.one "statistics" (.dict (.one "good_sections" (.atom sections))))⟩

/-- `DropoutRateResults.to_dict`, dropoutrateresults.py:38-39. -/
def dropoutRateRun (rate : Atom) : NodeRun := ⟨dropoutRateNode, some (.one "statistics" (.dict (.one "dropout_rate" (.atom rate))))⟩

/-- `TotalEnergyResults.to_dict`, totalenergyresults.py:35-36. -/
def totalEnergyRun (energies : Dict) : NodeRun := ⟨totalEnergyNode, some (.one "total_energy" (.dict energies))⟩

end Nilmtk
