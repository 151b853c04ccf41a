import Verif.Model.Py
import Mathlib.Data.List.Sort
import Mathlib.Algebra.Order.Ring.Rat
/-!
Model of parts of `nilmtk/utils.py`: `find_nearest`, `tree_root`.
-/
namespace Nilmtk

/-- What `np.argsort(known)` guarantees: a permutation of the positions putting the values in ascending order. The order
of equal values is not specified (the default sort is not stable). -/
def IsArgsort (known : List Rat) (order : List Nat) : Prop :=
  order.Perm (List.range known.length) ∧ (order.map (fun i => known.getD i 0)).Pairwise (· ≤ ·)

/-- One particular argsort. -/
def argsort (known : List Rat) : List Nat :=
  (List.range known.length).insertionSort (fun i j => known.getD i 0 ≤ known.getD j 0)

/-- `np.searchsorted(sorted, x)` (`side='left'`): the number of values below `x`. -/
def searchsortedLeft (sorted : List Rat) (x : Rat) : Nat := sorted.countP (fun y => decide (y < x))

/-- `find_nearest`, utils.py:99-132, for one value of `test_array` and a non-empty `known_array`: the index and the
residual. `order` is the result of `np.argsort`. `np.clip(idx1 - 1, 0, m - 1)` is written with natural number
subtraction. -/
def findNearest1 (known : List Rat) (order : List Nat) (x : Rat) : Nat × Rat :=
  let sorted := order.map (fun i => known.getD i 0)
  let idx1 := searchsortedLeft sorted x
  let idx2 := min (idx1 - 1) (sorted.length - 1)
  let idx3 := min idx1 (sorted.length - 1)
  let diff1 := sorted.getD idx3 0 - x
  let diff2 := x - sorted.getD idx2 0
  let index := order.getD (if diff1 ≤ diff2 then idx3 else idx2) 0
  (index, x - known.getD index 0)

/-- `find_nearest`, utils.py:99-132: an empty `known_array` raises `IndexError` unless `test_array` is
empty. -/
def findNearest (known : List Rat) (order : List Nat) (test : List Rat) : Except Err (List (Nat × Rat)) :=
  if known = [] ∧ test ≠ [] then .error .indexError
  else .ok (test.map (findNearest1 known order))

/-- A directed graph: nodes without repetition, and edges. -/
structure Graph (α : Type) where
  nodes : List α
  edges : List (α × α)

/-- `graph.in_degree()` of one node. -/
def Graph.inDegree {α : Type} [DecidableEq α] (g : Graph α) (n : α) : Nat := g.edges.countP (fun e => decide (e.2 = n))

/-- `tree_root`, utils.py:68-84, for a directed graph. -/
def treeRoot {α : Type} [DecidableEq α] (g : Graph α) : Except Err α :=
  match g.nodes.filter (fun n => decide (g.inDegree n = 0)) with
  | [] => .error .runtimeError
  | [r] => .ok r
  | _ :: _ :: _ => .error .runtimeError

/-- `nodes_adjacent_to_root`, utils.py:87-89: the successors of the root. -/
def nodesAdjacentToRoot {α : Type} [DecidableEq α] (g : Graph α) : Except Err (List α) :=
  match treeRoot g with
  | .error e => .error e
  | .ok r => .ok ((g.edges.filter (fun e => decide (e.1 = r))).map Prod.snd)

end Nilmtk
