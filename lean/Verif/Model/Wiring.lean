import Verif.Model.Group
import Verif.Model.Utils
import Mathlib.Data.List.Dedup
/-!
Model of the wiring of a building: `ElecMeter.upstream_meter` (elecmeter.py), `MeterGroup.upstream_meter`, `wiring_graph`
and `meters_directly_downstream_of_mains` (metergroup.py).

`nilmtk.global_meter_group` is the list of every `ElecMeter` created so far, each identifier once (elecmeter.py:59-63).
-/
namespace Nilmtk

/-- The metadata of an `ElecMeter` read by `upstream_meter`, elecmeter.py:114 and 122-123; `none` is a missing attribute. -/
structure Wire where
  submeterOf : Option Int
  inBuilding : Option Int
  deriving DecidableEq, Repr

/-- What `upstream_meter` finds: an `ElecMeter`, or the new `MeterGroup` of the site meters of a building. Meters are told
apart by their identifiers (hashable.py:6-17); groups made by `mains()` from the same list hash and compare equal when
they hold the same meters. -/
inductive WNode where
  | elec (id : MeterId)
  | mains (ids : List MeterId)
  deriving DecidableEq, Repr

/-- The insertion of a new `ElecMeter` in `nilmtk.global_meter_group`, elecmeter.py:59-63. -/
def register (glob : List Elec) (e : Elec) : List Elec :=
  if glob.any (fun g => decide (g.id = e.id)) then glob else glob ++ [e]

/-- `nilmtk.global_meter_group[ElecMeterID(instance=0, building, dataset)]`, metergroup.py:221-224: `select` raises
`KeyError` when no meter matches (metergroup.py:367-368), otherwise `mains()` (metergroup.py:777-796) of the meters of one
building. -/
def globalMains (glob : List Elec) (building : Int) (dataset : String) : Except Err (Option WNode) :=
  match glob.filter (fun g => decide (g.id.building = building ∧ g.id.dataset = dataset)) with
  | [] => .error .keyError
  | sel =>
    match sel.filter (fun g => g.site) with
    | [] => .ok none
    | [g] => .ok (some (.elec g.id))
    | gs => .ok (some (.mains (gs.map Elec.id)))

/-- `nilmtk.global_meter_group[ElecMeterID(...)]` for an instance other than 0, metergroup.py:225-229. -/
def globalMeter (glob : List Elec) (id : MeterId) : Except Err (Option WNode) :=
  match glob.find? (fun g => decide (g.id = id)) with
  | none => .error .keyError
  | some g => .ok (some (.elec g.id))

/-- `ElecMeter.upstream_meter`, elecmeter.py:101-135; warnings are not modelled. -/
def upstreamMeter (glob : List Elec) (W : MeterId → Wire) (e : Elec) : Except Err (Option WNode) :=
  if e.site then .ok none
  else
    match (W e.id).submeterOf with
    | none => .error .valueError
    | some k =>
      if k < 0 then .error .valueError
      else if (W e.id).inBuilding ≠ none ∧ (W e.id).inBuilding ≠ some e.id.building then .error .notImplemented
      else if k = 0 then globalMains glob e.id.building e.id.dataset
      else globalMeter glob ⟨.one k, e.id.building, e.id.dataset⟩

/-- `graph.add_node(n)`. -/
def addNode (ns : List WNode) (n : WNode) : List WNode := if n ∈ ns then ns else ns ++ [n]

/-- `graph.add_edge(u, v)` of a `networkx.DiGraph`: both ends become nodes; an edge is kept once. -/
def Graph.addEdge (g : Graph WNode) (u v : WNode) : Graph WNode :=
  ⟨addNode (addNode g.nodes u) v, if (u, v) ∈ g.edges then g.edges else g.edges ++ [(u, v)]⟩

mutual
/-- The body of `_build_wiring_graph`, metergroup.py:581-594, for one meter. -/
def wireMeter (glob : List Elec) (W : MeterId → Wire) (g : Graph WNode) : Meter → Except Err (Graph WNode)
  | .elec e =>
    match upstreamMeter glob W e with
    | .error err => .error err
    | .ok none => .ok g
    | .ok (some u) => .ok (g.addEdge u (.elec e.id))
  | .group _ ms _ => wireMeters glob W g ms
/-- `_build_wiring_graph`, metergroup.py:580-594. -/
def wireMeters (glob : List Elec) (W : MeterId → Wire) (g : Graph WNode) : List Meter → Except Err (Graph WNode)
  | [] => .ok g
  | m :: ms =>
    match wireMeter glob W g m with
    | .error err => .error err
    | .ok g' => wireMeters glob W g' ms
end

/-- `MeterGroup.wiring_graph`, metergroup.py:576-596. -/
def wiringGraph (glob : List Elec) (W : MeterId → Wire) (ms : List Meter) : Except Err (Graph WNode) :=
  wireMeters glob W ⟨[], []⟩ ms

/-- `MeterGroup.meters_directly_downstream_of_mains`, metergroup.py:827-830: the meters of the new group. -/
def directlyDownstream (glob : List Elec) (W : MeterId → Wire) (ms : List Meter) : Except Err (List WNode) :=
  match wiringGraph glob W ms with
  | .error err => .error err
  | .ok g => nodesAdjacentToRoot g

/-- `list(set(...))` of the upstream meters and the test of its length, metergroup.py:821-825. -/
def onlyUpstream (ups : List (Option WNode)) : Except Err (Option WNode) :=
  match ups.dedup with
  | [] => .error .indexError
  | [u] => .ok u
  | _ => .error .runtimeError

mutual
/-- `upstream_meter()` of a meter or of a group, elecmeter.py:101-135 and metergroup.py:814-825. -/
def Meter.upstream (glob : List Elec) (W : MeterId → Wire) : Meter → Except Err (Option WNode)
  | .elec e => upstreamMeter glob W e
  | .group _ ms _ =>
    match Meter.upstreams glob W ms with
    | .error err => .error err
    | .ok ups => onlyUpstream ups
/-- The loop of `MeterGroup.upstream_meter`, metergroup.py:818-820. -/
def Meter.upstreams (glob : List Elec) (W : MeterId → Wire) : List Meter → Except Err (List (Option WNode))
  | [] => .ok []
  | m :: ms =>
    match m.upstream glob W with
    | .error err => .error err
    | .ok u =>
      match Meter.upstreams glob W ms with
      | .error err => .error err
      | .ok us => .ok (u :: us)
end

end Nilmtk
