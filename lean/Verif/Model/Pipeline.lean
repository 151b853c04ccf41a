import Verif.Model.Node
/-!
Model of the dry run of a pipeline of nodes: `Node.dry_run_metadata` and the checks of requirements, `nilmtk/node.py:36-70`, with the requirements and
postconditions of the nodes of `nilmtk/preprocessing` and `nilmtk/stats`.

`recursively_update_dict` is a function of the package `nilm_metadata`, which is not part of the repository: values of the source replace those of the
target, except that dictionaries are updated in the same way. What it does where one of the two is a dictionary and the other is not is an input
(`clash`). Simplification: a list in the target is replaced by a list of the source, while the function extends it (the only list in the
postconditions of the repository is empty, for which that is the same).
-/
namespace Nilmtk

/-- `d[key] = value`. -/
def Dict.set (k : String) (v : Val) : Dict → Dict
  | .nil => .cons k v .nil
  | .cons k' v' rest => if k = k' then .cons k' v rest else .cons k' v' (rest.set k v)

mutual
/-- The new value of a key of both, of which the target has the value `t`. -/
def mergeVal (clash : Val → Val → Except Err Val) (t : Val) : Val → Except Err Val
  | .atom a =>
    match t with
    | .atom _ => .ok (.atom a)
    | .dict d => clash (.dict d) (.atom a)
  | .dict s =>
    match t with
    | .atom a => clash (.atom a) (.dict s)
    | .dict d =>
      match mergeDict clash d s with
      | .error e => .error e
      | .ok m => .ok (.dict m)
/-- `recursively_update_dict(target, source)`, used in node.py:69: the target afterwards. -/
def mergeDict (clash : Val → Val → Except Err Val) (target : Dict) : Dict → Except Err Dict
  | .nil => .ok target
  | .cons k v rest =>
    match target.get? k with
    | none => mergeDict clash (target.set k v) rest
    | some t =>
      match mergeVal clash t v with
      | .error e => .error e
      | .ok m => mergeDict clash (target.set k m) rest
end

/-- A class of nodes, node.py:10-11. -/
structure NodeClass where
  requirements : Dict
  postconditions : Dict

/-- `dry_run_metadata` of the last node, node.py:60-70, and of the meter, elecmeter.py:565-566. The nodes are given from the last to the first, the one
that is next to the meter. -/
def dryRun (clash : Val → Val → Except Err Val) (meter : Dict) : List NodeClass → Except Err Dict
  | [] => .ok meter
  | n :: upstream =>
    match dryRun clash meter upstream with
    | .error e => .error e
    | .ok state => mergeDict clash n.postconditions state

/-- The checks when the last node is run: each node checks before it pulls from the one before it, clip.py:23, goodsections.py:28, totalenergy.py:22,
dropoutrate.py:14. -/
def pipelineChecks (clash : Val → Val → Except Err Val) (meter : Dict) : List NodeClass → Except Err Unit
  | [] => .ok ()
  | n :: upstream =>
    match dryRun clash meter upstream with
    | .error e => .error e
    | .ok state =>
      match checkRequirements state n.requirements with
      | .error e => .error e
      | .ok _ => pipelineChecks clash meter upstream

/-- A dictionary with one key. -/
def Dict.one (k : String) (v : Val) : Dict := .cons k v .nil

/-- `'ANY VALUE'`. -/
def anyValue : Val := .atom (.str "ANY VALUE")

/-- `Clip`, clip.py:15-16. -/
def clipNode : NodeClass :=
  ⟨.one "device" (.dict (.one "measurements" anyValue)), .one "preprocessing_applied" (.dict (.one "clip" (.dict .nil)))⟩

/-- `GoodSections`, goodsections.py:19-20; the list is empty. -/
def goodSectionsNode : NodeClass :=
  ⟨.one "device" (.dict (.one "max_sample_period" anyValue)), .one "statistics" (.dict (.one "good_sections" (.atom (.other 0))))⟩

/-- `DropoutRate`, dropoutrate.py:9-10. -/
def dropoutRateNode : NodeClass :=
  ⟨.one "device" (.dict (.one "sample_period" anyValue)), .one "statistics" (.dict (.one "dropout_rate" (.atom (.other 1))))⟩

/-- `TotalEnergy`, totalenergy.py:13-15. -/
def totalEnergyNode : NodeClass :=
  ⟨.cons "device" (.dict (.one "max_sample_period" anyValue)) (.one "preprocessing_applied" (.dict (.one "clip" anyValue))),
    .one "statistics" (.dict (.one "energy" (.dict .nil)))⟩

end Nilmtk
