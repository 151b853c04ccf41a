import Verif.Model.Mle
/-!
Model of `MLE.disaggregate_chunk`, `nilmtk/legacy/disaggregate/maximum_likelihood_estimation.py:459-562`, with the check of units, lines 115-132.

The chunk has one column without missing readings. The product of the three densities, lines 520-523, is an input (`likelihood`, of the rise, the fall and the
time between them in ns), and so is the order in which `sort` leaves detections of the same likelihood (`sort`). As in `Model/Mle.lean`, the file is
modelled as for the versions of pandas it was written for.
-/
namespace Nilmtk

/-- The attributes of the model that are used: lines 73-93. -/
structure MleModel (υ : Type) where
  units : υ
  resistive : Bool
  powerNoise : Rat
  powerPair : Rat
  /-- in ns -/
  timeWindow : Int
  thLikelihood : Rat
  likelihood : Rat → Rat → Int → Rat

/-- `__physical_quantity`, lines 115-132, for the column of the chunk. When the units differ, the text of the error uses the name `units` that has no value
yet, so what is raised is not the `ValueError`. -/
def mleUnits {υ : Type} [DecidableEq υ] (m : MleModel υ) (column : υ) : Except Err υ :=
  if !m.resistive then
    if column = m.units then .ok column else .error .unboundLocal
  else .ok column

/-- The differences, line 491; the first is missing and is no event. -/
def mleSteps (rows : List MleRow) : List MleRow := List.zipWith (fun a b => (b.1, b.2 - a.2)) rows rows.tail

/-- A row of `detections`, lines 524-526. -/
structure MleDet where
  onTime : Int
  offTime : Int
  likelihood : Rat
  deltaOn : Rat
  deriving DecidableEq

/-- `detection_list`, lines 494-528. -/
def mleDetections {υ : Type} (m : MleModel υ) (rows : List MleRow) : List MleDet :=
  let on := (mleSteps rows).filter (fun e => decide (m.powerNoise < e.2))
  let off := (mleSteps rows).filter (fun e => decide (e.2 < -m.powerNoise))
  on.flatMap (fun a =>
    ((off.filter (fun b => decide (a.1 < b.1) && decide (b.1 < a.1 + m.timeWindow))).filter (fun b => decide (abs (a.2 - abs b.2) < m.powerPair))).map
      (fun b => ⟨a.1, b.1, m.likelihood a.2 b.2 (b.1 - a.1), a.2⟩))

/-- The mask of lines 551-555. -/
def MleDet.within (d : MleDet) (t : Int) : Bool := decide (d.onTime ≤ t) && decide (t < d.offTime)

/-- The body of the last loop, lines 551-555. -/
def mlePlace (out : List MleRow) (d : MleDet) : List MleRow :=
  if ((out.filter (fun r => d.within r.1)).map Prod.snd).sum = 0 then out.map (fun r => if d.within r.1 then (r.1, d.deltaOn) else r) else out

/-- `disaggregate_chunk`, lines 459-562. -/
def mleDisaggregate {υ : Type} [DecidableEq υ] (sort : List MleDet → List MleDet) (m : MleModel υ) (column : υ) (rows : List MleRow) :
    Except Err (List MleRow) :=
  match mleUnits m column with
  | .error e => .error e
  | .ok _ =>
    .ok ((sort ((mleDetections m rows).filter (fun d => decide (m.thLikelihood ≤ d.likelihood)))).foldl mlePlace (rows.map (fun r => (r.1, 0))))

end Nilmtk
