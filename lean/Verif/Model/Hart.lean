import Verif.Model.Py
import Mathlib.Algebra.Order.Ring.Rat
import Mathlib.Algebra.Order.Group.Abs
/-!
Model of `PairBuffer`, `Hart85.pair` and `Hart85.assign_power_from_states` in `nilmtk/disaggregate/hart_85.py`.

Numbers are exact. A transition has a time, a real power and possibly a reactive power (`num_measurements` 2 or 3).
-/
namespace Nilmtk

/-! ### Pairing -/

/-- One transition as given to `add_transition`. -/
structure Transition where
  time : Int
  p : Rat
  q : Option Rat
  deriving DecidableEq, Repr

/-- An entry of the buffer: the transition and the marker. -/
structure Entry where
  t : Transition
  matched : Bool
  deriving DecidableEq, Repr

/-- The settings of a `PairBuffer`, hart_85.py:25-64. -/
structure HartParams where
  bufferSize : Nat
  minTol : Rat
  percentTol : Rat
  large : Rat

/-- `transition_list` and `matched_pairs`. -/
structure HartBuf where
  buf : List Entry
  pairs : List (Transition × Transition)
  deriving DecidableEq, Repr

/-- `matchtols[ix - 1]`, hart_85.py:144-150. -/
def matchTol (prm : HartParams) (a b : Rat) : Rat :=
  if max |a| |b| < prm.large then prm.minTol else prm.percentTol * max |a| |b|

/-- `condition`, hart_85.py:151-159. -/
def pairCondition (prm : HartParams) (v c : Transition) : Bool :=
  match v.q, c.q with
  | some vq, some cq =>
    decide (|v.p + c.p| < matchTol prm v.p c.p) && decide (|vq + cq| < matchTol prm vq cq)
  | _, _ => decide (|v.p + c.p| < matchTol prm v.p c.p)

/-- Mark the entry at a position. -/
def markAt (buf : List Entry) (i : Nat) : List Entry := buf.modify i (fun e => { e with matched := true })

/-- The body of the inner loop for `idx = i`, `compindex = j`, hart_85.py:130-171. -/
def tryPair (prm : HartParams) (s : HartBuf) (i j : Nat) : HartBuf :=
  match s.buf[i]?, s.buf[j]? with
  | some v, some c =>
    if 0 < v.t.p ∧ v.matched = false then
      if c.matched = false then
        if pairCondition prm v.t c.t = true then
          ⟨markAt (markAt s.buf i) j, s.pairs ++ [(v.t, c.t)]⟩
        else s
      else s
    else s
  | _, _ => s

/-- The inner loop, hart_85.py:127-176, from `idx`; `n` is `tlength`. -/
def pairInner (prm : HartParams) (n d : Nat) (s : HartBuf) (idx : Nat) : HartBuf :=
  if idx < n - 1 then
    if idx + d < n then pairInner prm n d (tryPair prm s idx (idx + d)) (idx + 1) else s
  else s
termination_by n - idx

/-- The outer loop over `eDistance`, hart_85.py:126-176. -/
def pairOuter (prm : HartParams) (n : Nat) : List Nat → HartBuf → HartBuf
  | [], s => s
  | d :: ds, s => pairOuter prm n ds (pairInner prm n d s 0)

/-- `PairBuffer.pair_transitions`, hart_85.py:91-187. -/
def pairTransitions (prm : HartParams) (s : HartBuf) : HartBuf :=
  if s.buf.length < 2 then s
  else pairOuter prm s.buf.length ((List.range (s.buf.length - 1)).map (fun i : Nat => i + 1)) s

/-- `MyDeque.popmiddle`, hart_85.py:11-15: rotate left by `pos`, pop the first, rotate right by `pos`. -/
def popMiddle (buf : List Entry) (pos : Nat) : List Entry :=
  let rotated := buf.drop pos ++ buf.take pos
  let rest := rotated.drop 1
  rest.drop (rest.length - pos) ++ rest.take (rest.length - pos)

theorem popMiddle_eq (buf : List Entry) (pos : Nat) (h : pos < buf.length) :
    popMiddle buf pos = buf.take pos ++ buf.drop (pos + 1) := by
  unfold popMiddle
  have h1 : (buf.drop pos ++ buf.take pos).drop 1 = buf.drop (pos + 1) ++ buf.take pos := by
    rw [List.drop_append_of_le_length (by rw [List.length_drop]; omega), List.drop_drop]
  simp only [h1]
  have h2 : (buf.drop (pos + 1) ++ buf.take pos).length - pos = (buf.drop (pos + 1)).length := by
    rw [List.length_append, List.length_take]; omega
  rw [h2, List.drop_left, List.take_left]

theorem popMiddle_length (buf : List Entry) (pos : Nat) (h : pos < buf.length) :
    (popMiddle buf pos).length < buf.length := by
  rw [popMiddle_eq buf pos h, List.length_append, List.length_take, List.length_drop]
  omega

/-- `PairBuffer.clean_buffer`, hart_85.py:65-74: remove the first marked entry and start again. -/
def cleanBuffer (buf : List Entry) : List Entry :=
  if _h : buf.findIdx (fun e => e.matched) < buf.length then
    cleanBuffer (popMiddle buf (buf.findIdx (fun e => e.matched)))
  else buf
termination_by buf.length
decreasing_by exact popMiddle_length _ _ _h

/-- `transition_list.append` on a deque with `maxlen`, hart_85.py:86: the oldest entries are dropped. -/
def addTransition (prm : HartParams) (buf : List Entry) (t : Transition) : List Entry :=
  let b := buf ++ [⟨t, false⟩]
  b.drop (b.length - prm.bufferSize)

/-- One round of the loop in `Hart85.pair`, hart_85.py:378-383. -/
def hartStep (prm : HartParams) (s : HartBuf) (t : Transition) : HartBuf :=
  let b := if s.buf.length = prm.bufferSize then cleanBuffer s.buf else s.buf
  pairTransitions prm ⟨addTransition prm b t, s.pairs⟩

/-- `Hart85.pair`, hart_85.py:370-385. -/
def hartPair (prm : HartParams) (ts : List Transition) : HartBuf := ts.foldl (hartStep prm) ⟨[], []⟩

/-! ### Power from states -/

/-- Assigning a float into an array with `dtype=int`, hart_85.py:518-520, 528: the value is truncated towards zero. -/
def truncInt (q : Rat) : Int := q.num.tdiv q.den

/-- `while values[i] != stop and i < len(values) - 1`: the common inner loop of hart_85.py:529-568, writing `w` while the
value is not `stop`. Returns the new `i` and the powers. The bounds check comes second in Python but `i` never exceeds
`len(values) - 1` there. -/
def fillWhile {α : Type} (values : List Int) (stop : Int) (w : α) (i : Nat) (power : List α) : Nat × List α :=
  if values.getD i 0 ≠ stop ∧ i < values.length - 1 then fillWhile values stop w (i + 1) (power.set i w)
  else (i, power)
termination_by values.length - i

theorem fillWhile_ge {α : Type} (values : List Int) (stop : Int) (w : α) (i : Nat) (power : List α) :
    i ≤ (fillWhile values stop w i power).1 := by
  induction i, power using fillWhile.induct values stop w with
  | case1 i power h ih => rw [fillWhile, if_pos h]; omega
  | case2 i power h => rw [fillWhile, if_neg h]

theorem fillWhile_gt {α : Type} (values : List Int) (stop : Int) (w : α) (i : Nat) (power : List α)
    (h : values.getD i 0 ≠ stop ∧ i < values.length - 1) : i < (fillWhile values stop w i power).1 := by
  rw [fillWhile, if_pos h]
  exact fillWhile_ge values stop w (i + 1) _

/-- The outer loop of `assign_power_from_states`, hart_85.py:523-568, for one appliance; `z` is the zero row and `c` the
row of the centroid as stored. Lean accepts the definition because every round advances `i`: the Python loop
terminates. -/
def assignLoop {α : Type} (values : List Int) (prev : Int) (z c : α) (i : Nat) (power : List α) : List α :=
  if h : i < values.length - 1 then
    if values.getD i 0 = 1 then
      assignLoop values prev z c (fillWhile values 0 c (i + 1) (power.set (i + 1) c)).1
        (fillWhile values 0 c (i + 1) (power.set (i + 1) c)).2
    else if values.getD i 0 = 0 then
      assignLoop values prev z c (fillWhile values 1 z (i + 1) (power.set (i + 1) z)).1
        (fillWhile values 1 z (i + 1) (power.set (i + 1) z)).2
    else if prev = -1 ∨ prev = 0 then
      assignLoop values prev z c (fillWhile values 1 z i (power.set i z)).1 (fillWhile values 1 z i (power.set i z)).2
    else
      assignLoop values prev z c (fillWhile values 0 c i (power.set i c)).1 (fillWhile values 0 c i (power.set i c)).2
  else power
termination_by values.length - i
decreasing_by
  · exact Nat.sub_lt_sub_left (by omega) (Nat.lt_of_lt_of_le (Nat.lt_succ_self i) (fillWhile_ge _ _ _ _ _))
  · exact Nat.sub_lt_sub_left (by omega) (Nat.lt_of_lt_of_le (Nat.lt_succ_self i) (fillWhile_ge _ _ _ _ _))
  · exact Nat.sub_lt_sub_left (by omega) (fillWhile_gt _ _ _ _ _ ⟨by assumption, h⟩)
  · exact Nat.sub_lt_sub_left (by omega) (fillWhile_gt _ _ _ _ _ ⟨by assumption, h⟩)

/-- `assign_power_from_states` for one appliance, hart_85.py:512-572; the centroid has one or two components. -/
def assignPower (values : List Int) (prev : Int) (centroid : List Rat) : List (List Int) :=
  assignLoop values prev (centroid.map (fun _ => (0 : Int))) (centroid.map truncInt) 0
    (List.replicate values.length (centroid.map (fun _ => (0 : Int))))

end Nilmtk
