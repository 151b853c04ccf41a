import Verif.Model.Py
/-!
Model of `nilmtk/timeframe.py`.
-/
namespace Nilmtk

/-- `TimeFrame` object state, timeframe.py:10-51 (`_start`, `_end`, `enabled`, `_empty`,
`include_end`). `none` is Python's `None`. -/
structure TF where
  rawStart : Option Int
  rawEnd : Option Int
  enabled : Bool
  empty : Bool
  includeEnd : Bool
  deriving DecidableEq, Repr

namespace TF

/-- `TimeFrame.start` getter, timeframe.py:62-65. -/
def start (f : TF) : Option Int := if f.enabled then f.rawStart else none

/-- `TimeFrame.end` getter, timeframe.py:67-70. -/
def stop (f : TF) : Option Int := if f.enabled then f.rawEnd else none

/-- `TimeFrame.clear`, timeframe.py:47-51 (leaves `include_end` alone). -/
def clear (f : TF) : TF := { f with enabled := true, rawStart := none, rawEnd := none, empty := false }

/-- `TimeFrame.start` setter, timeframe.py:76-86. `pd.Timestamp` values are always truthy, so
`if self.end and ...` tests for `None`. Simplification: the argument is already a Timestamp or None/NaT. -/
def setStart (f : TF) (new : Option Int) : Except Err TF :=
  match new with
  | none => .ok { f with rawStart := none }
  | some s =>
    match f.stop with
    | some e => if s ≥ e then .error .valueError else .ok { f with rawStart := some s }
    | none => .ok { f with rawStart := some s }

/-- `TimeFrame.end` setter, timeframe.py:88-98. -/
def setEnd (f : TF) (new : Option Int) : Except Err TF :=
  match new with
  | none => .ok { f with rawEnd := none }
  | some e =>
    match f.start with
    | some s => if e ≤ s then .error .valueError else .ok { f with rawEnd := some e }
    | none => .ok { f with rawEnd := some e }

/-- The object just after `self.clear()` at timeframe.py:30. -/
def blank : TF := { rawStart := none, rawEnd := none, enabled := true, empty := false, includeEnd := false }

/-- `TimeFrame(start, end)`, timeframe.py:29-41. Simplification: no `tz` argument. -/
def ctor (s e : Option Int) : Except Err TF :=
  match blank.setStart s with
  | .error x => .error x
  | .ok f =>
    match f.setEnd e with
    | .error x => .error x
    | .ok g => .ok { g with includeEnd := false }

/-- The frame built by a successful `TimeFrame(s, e)` (see `TF.ctor_ok`). -/
def mk' (s e : Option Int) : TF :=
  { rawStart := s, rawEnd := e, enabled := true, empty := false, includeEnd := false }

/-- `TimeFrame.adjacent`, timeframe.py:100-119, with Python's left-to-right, short-circuit
evaluation; a `None` bound gives `TypeError` when it is used. `gap` is in time units. -/
def adjacent (self other : TF) (gap : Int) : Except Err Bool :=
  if gap < 0 then .error .assertionError
  else if self.empty || other.empty then .ok false
  else
    match other.start, self.stop with
    | some os, some se =>
      if os - gap ≤ se ∧ se ≤ os then .ok true
      else
        match self.start, other.stop with
        | some ss, some oe => .ok (decide (ss - gap ≤ oe ∧ oe ≤ ss))
        | _, _ => .error .typeError
    | _, _ => .error .typeError

/-- `TimeFrame.union`, timeframe.py:121-125: `min`/`max` raise `TypeError` on `None`. -/
def union (self other : TF) : Except Err TF :=
  match self.start, other.start with
  | some ss, some os =>
    match self.stop, other.stop with
    | some se, some oe => ctor (some (min ss os)) (some (max se oe))
    | _, _ => .error .typeError
  | _, _ => .error .typeError

/-- `TimeFrame.timedelta`, timeframe.py:127-132 (`none` is Python's `None`). -/
def timedelta (f : TF) : Option Int :=
  match f.stop, f.start with
  | some e, some s => some (e - s)
  | _, _ => if f.empty then some 0 else none

/-- The start chosen by `intersection`, timeframe.py:150-155. -/
def interStart (self other : TF) : Option Int :=
  match other.start, self.start with
  | none, s => s
  | o, none => o
  | some o, some s => some (max s o)

/-- The end chosen by `intersection`, timeframe.py:157-162. -/
def interEnd (self other : TF) : Option Int :=
  match other.stop, self.stop with
  | none, s => s
  | o, none => o
  | some o, some s => some (min s o)

/-- The `include_end` chosen by `intersection`, timeframe.py:144, 164-168. -/
def interInclude (self other : TF) : Bool :=
  if interEnd self other = other.stop then other.includeEnd
  else if interEnd self other = self.stop then self.includeEnd
  else false

/-- `intersect = TimeFrame(start, end); intersect._empty = ...; intersect.include_end = ...`,
timeframe.py:178-180, when the constructor does not raise. -/
def built (s e : Option Int) (empty inc : Bool) : TF := ⟨s, e, true, empty, inc⟩

/-- `TimeFrame.intersection`, timeframe.py:134-181, for `other` a TimeFrame. The final
`TimeFrame(start, end)` cannot raise, because `start < end` or one of them is `None` there. -/
def intersection (self other : TF) : TF :=
  if self.empty || other.empty then
    built none none true false
  else
    match interStart self other, interEnd self other with
    | some s, some e =>
      if s ≥ e then built none none true (interInclude self other)
      else built (some s) (some e) false (interInclude self other)
    | s, e => built s e false (interInclude self other)

/-- `TimeFrame.intersection` with `other` possibly `None`, timeframe.py:139-140 (deepcopy). -/
def intersectionOpt (self : TF) : Option TF → TF
  | none => self
  | some o => self.intersection o

/-- `TimeFrame.__eq__`, timeframe.py:225-228. -/
def eq (self other : TF) : Bool :=
  other.start == self.start && other.stop == self.stop && other.empty == self.empty

/-- The tuple hashed by `TimeFrame.__hash__`, timeframe.py:237-238. -/
def hashKey (f : TF) : Option Int × Option Int × Bool := (f.start, f.stop, f.empty)

/-- `TimeFrame.__lt__`, timeframe.py:230-235 (comparing `None < None` raises `TypeError`). -/
def lt (self other : TF) : Except Err Bool :=
  match self.start, other.start with
  | none, some _ => .ok true
  | some _, none => .ok false
  | some a, some b => .ok (decide (a < b))
  | none, none => .error .typeError

/-- `__gt__` added by `functools.total_ordering` (timeframe.py:9): `not (self < other) and self != other`. -/
def gt (self other : TF) : Except Err Bool :=
  match lt self other with
  | .error e => .error e
  | .ok b => .ok (!b && !eq self other)

/-- `__le__` added by `functools.total_ordering`: `self < other or self == other`. -/
def le (self other : TF) : Except Err Bool :=
  match lt self other with
  | .error e => .error e
  | .ok b => .ok (b || eq self other)

/-- `__ge__` added by `functools.total_ordering`: `not (self < other)`. -/
def ge (self other : TF) : Except Err Bool :=
  match lt self other with
  | .error e => .error e
  | .ok b => .ok (!b)

/-- `TimeFrame.to_dict`, timeframe.py:240-246: the optional keys `start` and `end`.
Simplification: the isoformat strings are identified with the instants they denote. -/
def toDict (f : TF) : Option Int × Option Int := (f.start, f.stop)

/-- `TimeFrame.from_dict`, timeframe.py:53-60. -/
def fromDict (d : Option Int × Option Int) : Except Err TF := ctor d.1 d.2

/-- `TimeFrame.check_for_overlap`, timeframe.py:258-262. -/
def checkForOverlap (self other : TF) : Except Err Unit :=
  if (self.intersection other).empty then .ok () else .error .valueError

/-- The `while True` loop of `TimeFrame.split`, timeframe.py:286-293, started on a frame `[s, e)`.
The constructor at line 292 raises `ValueError` when `allowed_end <= start`; the one at line 293
cannot raise because `end > allowed_end` there. The loop's first iteration never yields `self`
itself, because line 280 has already excluded `end <= start + threshold`. -/
def splitLoop (s e thr : Int) : Gen TF :=
  if _h0 : e ≤ s + thr then ⟨[mk' (some s) (some e)], none⟩
  else if _h : s + thr ≤ s then Gen.raise .valueError
  else Gen.cons (mk' (some s) (some (s + thr))) (splitLoop (s + thr) e thr)
termination_by (e - s).toNat
decreasing_by omega

/-- `TimeFrame.split`, timeframe.py:264-293. In Python 3 the guard at line 276 never fires (no
`__bool__`), so an open-ended frame raises `AttributeError` at line 280 (`None.total_seconds()`);
an empty frame with a negative threshold raises `TypeError` at line 287. -/
def split (f : TF) (thr : Int) : Gen TF :=
  match f.timedelta with
  | none => Gen.raise .attributeError
  | some d =>
    if thr ≥ d then ⟨[f], none⟩
    else
      match f.start, f.stop with
      | some s, some e => splitLoop s e thr
      | _, _ => Gen.raise .typeError

/-- `query_terms`, timeframe.py:183-192, as the pair of optional bounds it tests
(`None` when there is no term); raises on an empty frame. The end test is `<=` when
`include_end` is set. -/
def queryTerms (f : TF) : Except Err (Option (Option Int × Option (Int × Bool))) :=
  if f.empty then .error .exception
  else
    match f.start, f.stop with
    | none, none => .ok none
    | s, e => .ok (some (s, e.map (fun x => (x, f.includeEnd))))

end TF

/-- `split_timeframes`, timeframe.py:296-300. -/
def splitTimeframes : List TF → Int → Gen TF
  | [], _ => Gen.done
  | f :: fs, thr => (f.split thr).append (splitTimeframes fs thr)

/-- The loop of `merge_timeframes`, timeframe.py:323-330. `last` is `merged[-1]`, the finished
prefix of `merged` is emitted as the recursion proceeds. -/
def mergeLoop (gap : Int) (last : TF) : List TF → Except Err (List TF)
  | [] => .ok [last]
  | f :: fs =>
    match f.adjacent last gap with
    | .error e => .error e
    | .ok true =>
      match f.union last with
      | .error e => .error e
      | .ok u => mergeLoop gap u fs
    | .ok false =>
      match mergeLoop gap f fs with
      | .error e => .error e
      | .ok r => .ok (last :: r)

/-- `merge_timeframes`, timeframe.py:303-330. -/
def mergeTimeframes (fs : List TF) (gap : Int) : Except Err (List TF) :=
  match fs with
  | [] => .ok []
  | [f] => .ok [f]
  | f :: rest => mergeLoop gap f rest

/-- `list_of_timeframe_dicts`, timeframe.py:333-344. -/
def listOfTimeframeDicts (fs : List TF) : List (Option Int × Option Int) := fs.map TF.toDict

/-- `list_of_timeframes_from_list_of_dicts`, timeframe.py:351-353. -/
def timeframesFromDicts : List (Option Int × Option Int) → Except Err (List TF)
  | [] => .ok []
  | d :: ds =>
    match TF.fromDict d with
    | .error e => .error e
    | .ok f =>
      match timeframesFromDicts ds with
      | .error e => .error e
      | .ok fs => .ok (f :: fs)

/-- `TimeFrameGroup.intersection`, timeframegroup.py:36-52. -/
def groupIntersection (self other : List TF) : List TF :=
  self.flatMap (fun a => (other.map (fun b => a.intersection b)).filter (fun i => !i.empty))

/-- `TimeFrameGroup.uptime`, timeframegroup.py:54-59 (`timedelta + None` raises `TypeError`). -/
def uptimeFrom (acc : Int) : List TF → Except Err Int
  | [] => .ok acc
  | f :: fs =>
    match f.timedelta with
    | none => .error .typeError
    | some d => uptimeFrom (acc + d) fs

/-- `TimeFrameGroup.uptime`, timeframegroup.py:54-59. -/
def uptime (fs : List TF) : Except Err Int := uptimeFrom 0 fs

/-- `TimeFrameGroup.remove_shorter_than`, timeframegroup.py:61-68 (`None.total_seconds()` raises
`AttributeError`). -/
def removeShorterThan (fs : List TF) (thr : Int) : Except Err (List TF) :=
  match fs with
  | [] => .ok []
  | f :: rest =>
    match f.timedelta with
    | none => .error .attributeError
    | some d =>
      match removeShorterThan rest thr with
      | .error e => .error e
      | .ok r => if d ≥ thr then .ok (f :: r) else .ok r

end Nilmtk
