import Verif.Model.Py
import Mathlib.Algebra.Order.Ring.Rat
import Mathlib.Algebra.Order.Group.Abs
import Mathlib.Algebra.Order.Field.Basic
/-!
Model of `find_steady_states` in `nilmtk/feature_detectors/steady_states.py`.

Readings are exact and not NaN. `min_n_samples` is not used by the code.
-/
namespace Nilmtk

/-- A row of the data frame: its index and its columns. -/
abbrev PowerRow := Int × List Rat

/-- `np.subtract` on vectors of equal length. -/
def vsub (a b : List Rat) : List Rat := List.zipWith (fun x y => x - y) a b

/-- `np.sum(np.fabs(v) > level)` as a condition. -/
def exceeds (level : Rat) (v : List Rat) : Bool := v.any (fun x => decide (level < |x|))

/-- The variables of the loop, steady_states.py:57-71. -/
structure SSState where
  est : List Rat
  last : List Rat
  prev : List Rat
  ongoing : Bool
  transitions : List (Int × List Rat)
  steady : List (Int × List Rat)
  n : Nat
  time : Int
  deriving DecidableEq, Repr

/-- Step 3: a transition begins, steady_states.py:102-131; also the test after the loop, steady_states.py:153-158. -/
def recordEdge (noise : Rat) (s : SSState) : SSState :=
  if exceeds noise (vsub s.est s.last) then
    { s with
      transitions := s.transitions ++ [(s.time, vsub s.est s.last)]
      steady := s.steady ++ [(s.time, s.est)] }
  else s

/-- One round of the loop, steady_states.py:77-150. -/
def ssStep (threshold noise : Rat) (s : SSState) (row : PowerRow) : SSState :=
  let this := row.2.take 2
  let inst := exceeds threshold (vsub this s.prev)
  let s := if inst && !s.ongoing then { recordEdge noise s with last := s.est, time := row.1 } else s
  let n := if inst then 0 else s.n
  { s with
    est := List.zipWith (fun e x => ((n : Rat) * e + x) / ((n : Rat) + 1)) s.est this
    n := n + 1
    ongoing := inst
    prev := this }

/-- The values before the loop, steady_states.py:57-71. -/
def ssInit (m : Nat) (time : Int) : SSState :=
  ⟨List.replicate m 0, List.replicate m 0, List.replicate m 0, false, [], [], 0, time⟩

/-- `find_steady_states`, steady_states.py:36-198; `m` is the number of columns. With three or more columns
`row[1:3]` does not match the zero vector and `np.subtract` raises. The two frames are returned as lists of rows;
the case of no events, lines 182-184, gives two empty frames. -/
def findSteadyStates (m : Nat) (threshold noise : Rat) (rows : List PowerRow) :
    Except Err (List (Int × List Rat) × List (Int × List Rat)) :=
  match rows with
  | [] => .error .indexError
  | first :: _ =>
    if 3 ≤ m then .error .valueError
    else
      let s := recordEdge noise (rows.foldl (ssStep threshold noise) (ssInit m first.1))
      match s.steady, s.transitions with
      | (t0, s0) :: _, (t1, _) :: _ =>
        if s0.any (fun x => decide (noise < x)) ∧ t1 = t0 ∧ t0 = first.1 then
          .ok (s.steady.drop 1, s.transitions.drop 1)
        else .ok (s.steady, s.transitions)
      | _, _ => .error .indexError

end Nilmtk
