import Verif.Model.Py
import Mathlib.Data.Rat.Defs
import Mathlib.Algebra.Order.Group.Unbundled.Abs
import Mathlib.Algebra.Order.Ring.Rat
/-!
Model of the training of `MLE`, `nilmtk/legacy/disaggregate/maximum_likelihood_estimation.py`: `train`, `train_on_chunk` and `no_overfitting`.

The file uses `.ix` and is modelled as for the versions of pandas that have it. Simplifications: a chunk is resampled before, and has no missing reading;
the distributions that are fitted to the samples are not modelled, and fitting them raises nothing. A meter is known by what the statistics take of its
identifier (`ι`).
-/
namespace Nilmtk

/-- A reading, or an edge: its time in ns and its power. -/
abbrev MleRow := Int × Rat

/-- `chunk.ix[:, 0][chunk.ix[:, 0] < thDelta] = 0`, line 250. -/
def mleClean (th : Rat) (rows : List MleRow) : List MleRow := rows.map (fun r => (r.1, if r.2 < th then 0 else r.2))

/-- `chunk.ix[:, 0].diff()` and `fillna(0)`, lines 252-253. -/
def mleDelta : List MleRow → List MleRow
  | [] => []
  | r :: rest => (r.1, 0) :: List.zipWith (fun a b => (b.1, b.2 - a.2)) (r :: rest) rest

/-- `edges`, line 254. -/
def mleEdges (th : Rat) (rows : List MleRow) : List MleRow := (mleDelta (mleClean th rows)).filter (fun d => decide (th < |d.2|))

/-- `np.sign`. -/
def mleSign (x : Rat) : Int := if 0 < x then 1 else if x < 0 then -1 else 0

/-- `edges.apply(np.sign).diff()`. -/
def mleDiffBack (edges : List MleRow) : List (Option Int) :=
  none :: List.zipWith (fun a b => some (mleSign b.2 - mleSign a.2)) edges edges.tail

/-- `edges.apply(np.sign).diff(-1)`. -/
def mleDiffAhead (edges : List MleRow) : List (Option Int) :=
  List.zipWith (fun a b => some (mleSign a.2 - mleSign b.2)) edges edges.tail ++ [none]

/-- `edges[mask]`. -/
def mleWhere (edges : List MleRow) (diff : List (Option Int)) (x : Int) : List MleRow :=
  ((edges.zip diff).filter (fun p => decide (p.2 = some x))).map Prod.fst

/-- `offpower`, line 258. -/
def mleOff (edges : List MleRow) : List MleRow := mleWhere edges (mleDiffBack edges) (-2)

/-- `onpower`, line 259. -/
def mleOn (edges : List MleRow) : List MleRow := mleWhere edges (mleDiffAhead edges) 2

/-- `duration`, lines 260-262, in whole seconds. -/
def mleDuration (edges : List MleRow) : List Int := List.zipWith (fun off on => (off.1 - on.1) / 1000000000) (mleOff edges) (mleOn edges)

/-- The samples and `stats`, lines 75 and 88-90. -/
structure MleState (ι : Type) where
  on : List Rat
  off : List Rat
  duration : List Int
  stats : List (ι × Nat)

/-- A model that was not trained, lines 75 and 88-90, and the start of `train`, lines 199-203. -/
def MleState.start {ι : Type} : MleState ι := ⟨[], [], [], []⟩

/-- The update of `stats`, lines 298-313. The entries have different names, see `C132_counts`, so `index` finds the entry itself. -/
def mleStat {ι : Type} [DecidableEq ι] (stats : List (ι × Nat)) (i : ι) (n : Nat) : List (ι × Nat) :=
  if i ∈ stats.map Prod.fst then stats.map (fun s => if s.1 = i then (s.1, s.2 + n) else s) else stats ++ [(i, n)]

/-- `train_on_chunk`, lines 225-313. -/
def mleTrainChunk {ι : Type} [DecidableEq ι] (th : Rat) (s : MleState ι) (i : ι) (chunk : List MleRow) : MleState ι :=
  let edges := mleEdges th chunk
  if edges.length > 1 then
    ⟨s.on ++ (mleOn edges).map Prod.snd, s.off ++ (mleOff edges).map Prod.snd,
      (s.duration ++ mleDuration edges).filter (fun d => decide (d < 400)), mleStat s.stats i (mleOn edges).length⟩
  else
    ⟨s.on, s.off, s.duration.filter (fun d => decide (d < 400)), mleStat s.stats i 0⟩

/-- The loops of `train`, lines 205-222: meter by meter, the chunks that are not empty. -/
def mleTrain {ι : Type} [DecidableEq ι] (th : Rat) (meters : List (ι × List (List MleRow))) : MleState ι :=
  meters.foldl (fun s m => (m.2.filter (fun c => !c.isEmpty)).foldl (fun s c => mleTrainChunk th s m.1 c) s) .start

/-- The loop of `no_overfitting`, lines 583-605, for one of the three tables; `start` is `end` of the previous round, also in the first, where both are 0. -/
def mleCrop {α ι : Type} (samples : List α) (maxLen : Nat) (start : Nat) : List (ι × Nat) → List α
  | [] => []
  | (_, n) :: rest =>
    if n ≠ 0 then ((samples.take (start + n)).drop start).take maxLen ++ mleCrop samples maxLen (start + n) rest
    else mleCrop samples maxLen start rest

/-- `no_overfitting`, lines 564-617; the smallest of no numbers is a `ValueError`. -/
def mleNoOverfitting {ι : Type} (s : MleState ι) : Except Err (MleState ι) :=
  match ((s.stats.map Prod.snd).filter (fun n => decide (n ≠ 0))).min? with
  | none => .error .valueError
  | some maxLen =>
    .ok ⟨mleCrop s.on maxLen 0 s.stats, mleCrop s.off maxLen 0 s.stats, mleCrop s.duration maxLen 0 s.stats,
      s.stats.map (fun x => if x.2 ≠ 0 then (x.1, maxLen) else x)⟩

end Nilmtk
