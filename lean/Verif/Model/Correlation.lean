import Verif.Model.Dropout
import Mathlib.Analysis.Real.Sqrt
/-!
Model of `Electric.correlation` (`nilmtk/electric.py:311-371`).

A meter is given by the chunks that `power_series` yields, each a list of timestamps and readings (`none` is NaN).
Simplifications: floats are rational numbers, the square root is the real one; timestamps within a chunk are not repeated
(theorems that need it say so); a zero denominator (NaN or infinite in the code) gives `none`.
-/
namespace Nilmtk

abbrev CorChunk := List (Int × Option Rat)

/-- `n` of `sum_and_count`, electric.py:329-335: NaNs count. -/
def corN (cs : List CorChunk) : Nat := (cs.map List.length).sum

/-- `cumulator` of `sum_and_count`, electric.py:329-335: NaNs are skipped. -/
def corSum (cs : List CorChunk) : Rat := (cs.map (fun c => skipSum (c.map Prod.snd))).sum

/-- `x_bar`, electric.py:345-346. -/
def corMean (cs : List CorChunk) : Rat := corSum cs / corN cs

/-- `s_square_sum` of `stdev`, electric.py:350-352. -/
def corSq (mean : Rat) (cs : List CorChunk) : Rat :=
  (cs.map (fun c => skipSum (c.map (fun p => p.2.map (fun v => (v - mean) * (v - mean)))))).sum

/-- One reading of `xi_minus_xbar * yi_minus_ybar`: pandas aligns by timestamp, and the product is NaN when one side is missing
or NaN, electric.py:362-368. -/
def corProd (xbar ybar : Rat) (d : CorChunk) (p : Int × Option Rat) : Option Rat :=
  match p.2, d.lookup p.1 with
  | some v, some (some w) => some ((v - xbar) * (w - ybar))
  | _, _ => none

/-- `numerator`, electric.py:359-368: `zip` stops at the shorter list of chunks. -/
def corNum (xbar ybar : Rat) (xs ys : List CorChunk) : Rat :=
  (List.zipWith (fun c d => skipSum (c.map (corProd xbar ybar d))) xs ys).sum

/-- `stdev`, electric.py:349-354. -/
noncomputable def corStd (mean : Rat) (n : Nat) (cs : List CorChunk) : ℝ :=
  Real.sqrt (((corSq mean cs / ((n : Rat) - 1) : Rat) : ℝ))

/-- `correlation`, electric.py:311-371. -/
noncomputable def correlation (xs ys : List CorChunk) : Option ℝ :=
  if corN xs ≤ 1 then none
  else if corN ys ≤ 1 then none
  else
    let denominator := ((corN xs : ℝ) - 1) * corStd (corMean xs) (corN xs) xs * corStd (corMean ys) (corN ys) ys
    if denominator = 0 then none
    else some ((corNum (corMean xs) (corMean ys) xs ys : ℝ) / denominator)

end Nilmtk
