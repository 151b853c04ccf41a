import Verif.Model.Py
/-!
Model of `call_method_on_all_meters` and `pairwise` of `MeterGroup`, `nilmtk/metergroup.py:1003-1048`.

Simplifications: a meter is given by its identifier and by itself; `result[a][b] = v` writes the cell in column `a` and row
`b` of the frame (chained indexing of an object frame gives a view); calls of the method do not change the meters. The
calls that were made are recorded.
-/
namespace Nilmtk

/-- A frame of one value per pair of identifiers (column, row); `none` is NaN, as in a new frame. -/
abbrev PairFrame (ι α : Type) := ι × ι → Option α

/-- `result[a][b] = v`. -/
def setCell {ι α : Type} [DecidableEq ι] (f : PairFrame ι α) (c : ι × ι) (v : Option α) : PairFrame ι α :=
  fun d => if d = c then v else f d

/-- `for i, m_i in enumerate(self.meters): for j, m_j in enumerate(self.meters)`: the pairs in order. -/
def pairsInOrder {β : Type} (ms : List β) : List ((β × Nat) × (β × Nat)) :=
  ms.zipIdx.flatMap (fun a => ms.zipIdx.map (fun b => (a, b)))

/-- The body of the loops, metergroup.py:1041-1047, over the pairs left. -/
def pairLoopOn {ι μ α : Type} [DecidableEq ι] (method : μ → μ → Except Err α) :
    List (((ι × μ) × Nat) × ((ι × μ) × Nat)) → PairFrame ι α → List (μ × μ) →
    Except Err (PairFrame ι α × List (μ × μ))
  | [], f, calls => .ok (f, calls)
  | (a, b) :: ps, f, calls =>
    if a.2 > b.2 then pairLoopOn method ps (setCell f (a.1.1, b.1.1) (f (b.1.1, a.1.1))) calls
    else
      match method a.1.2 b.1.2 with
      | .error e => .error e
      | .ok v => pairLoopOn method ps (setCell f (a.1.1, b.1.1) (some v)) (calls ++ [(a.1.2, b.1.2)])

/-- `MeterGroup.pairwise`, metergroup.py:1022-1048: the frame, and the calls made. -/
def pairwiseMeters {ι μ α : Type} [DecidableEq ι] (method : μ → μ → Except Err α) (ms : List (ι × μ)) :
    Except Err (PairFrame ι α × List (μ × μ)) :=
  pairLoopOn method (pairsInOrder ms) (fun _ => none) []

/-- The loop of `call_method_on_all_meters`, metergroup.py:1017-1019; the series as a function of the identifier. -/
def callLoop {ι μ α : Type} [DecidableEq ι] (method : μ → Except Err α) :
    List (ι × μ) → (ι → Option α) → Except Err (ι → Option α)
  | [], s => .ok s
  | (i, m) :: ms, s =>
    match method m with
    | .error e => .error e
    | .ok v => callLoop method ms (fun j => if j = i then some v else s j)

/-- `MeterGroup.call_method_on_all_meters`, metergroup.py:1003-1020. -/
def callOnAll {ι μ α : Type} [DecidableEq ι] (method : μ → Except Err α) (ms : List (ι × μ)) : Except Err (ι → Option α) :=
  callLoop method ms (fun _ => none)

end Nilmtk
