import Verif.Model.Py
import Mathlib.Data.Rat.Floor
/-!
Model of `nilmtk/stats/histogram.py`. `np.histogram` is replaced by its documented meaning; readings are exact
rationals, `none` is NaN (NaN readings fall in no bin).
-/
namespace Nilmtk

/-- The edges of `n` equal bins over `[lo, hi]` (`np.linspace`); numpy widens an empty range by 0.5 on both
sides. -/
def npEdges (lo hi : Rat) (n : Nat) : List Rat :=
  let lo' := if lo = hi then lo - 1 / 2 else lo
  let hi' := if lo = hi then hi + 1 / 2 else hi
  (List.range (n + 1)).map (fun i : Nat => lo' + i * ((hi' - lo') / n))

/-- The counts of `np.histogram` for given edges: half-open bins, except the last one, which is closed. -/
def binCounts : List Rat → List Rat → List Nat
  | a :: b :: c :: es, xs => xs.countP (fun x => decide (a ≤ x ∧ x < b)) :: binCounts (b :: c :: es) xs
  | [a, b], xs => [xs.countP (fun x => decide (a ≤ x ∧ x ≤ b))]
  | [_], _ => []
  | [], _ => []

/-- The argument `bins`: `None`, a number of bins, or (after the first chunk) the edges. -/
inductive Bins where
  | none
  | count (n : Nat)
  | edges (es : List Rat)
  deriving DecidableEq, Repr

/-- The non-NaN readings of a chunk. -/
def present (chunk : List (Option Rat)) : List Rat := chunk.filterMap id

/-- `chunk.min()`; NaN (`none`) if there is no reading. -/
def minOf : List Rat → Option Rat
  | [] => none
  | x :: xs => some (xs.foldl min x)

/-- `chunk.max()`. -/
def maxOf : List Rat → Option Rat
  | [] => none
  | x :: xs => some (xs.foldl max x)

/-- `range`, histogram.py:24-30, after filling in the missing limits; NaN limits lead to `ValueError` in
`int()` (line 32) or in `np.histogram` (line 33). -/
def fillRange (r : Option (Option Rat × Option Rat)) (chunk : List (Option Rat)) : Except Err (Rat × Rat) :=
  let lo := match r with
    | none => minOf (present chunk)
    | some (some l, _) => some l
    | some (none, _) => minOf (present chunk)
  let hi := match r with
    | none => maxOf (present chunk)
    | some (_, some h) => some h
    | some (_, none) => maxOf (present chunk)
  match lo, hi with
  | some l, some h => .ok (l, h)
  | _, _ => .error .valueError

/-- `bins = int(range[1] - range[0])` if `None`, histogram.py:31-32 (a negative number is refused by
`np.histogram` like 0). -/
def fillBins (bins : Bins) (lo hi : Rat) : Bins :=
  match bins with
  | .none => .count ⌊hi - lo⌋.toNat
  | b => b

/-- `np.histogram(chunk, bins=bins, range=range)`: counts and edges. -/
def npHistogram (chunk : List (Option Rat)) (bins : Bins) (lo hi : Rat) : Except Err (List Nat × List Rat) :=
  match bins with
  | .none => .error .typeError
  | .count n =>
    if n < 1 then .error .valueError
    else if lo > hi then .error .valueError
    else .ok (binCounts (npEdges lo hi n) (present chunk), npEdges lo hi n)
  | .edges es => .ok (binCounts es (present chunk), es)

/-- `histogram_from_generator`, histogram.py:5-39: the loop, with the accumulator, `bins` and `range`. -/
def histLoop : Option (List Nat) → Bins → Option (Option Rat × Option Rat) → List (List (Option Rat)) →
    Except Err (Option (List Nat) × Bins)
  | acc, bins, _, [] => .ok (acc, bins)
  | acc, bins, range, chunk :: chunks =>
    match fillRange range chunk with
    | .error e => .error e
    | .ok (lo, hi) =>
      match npHistogram chunk (fillBins bins lo hi) lo hi with
      | .error e => .error e
      | .ok (hist, es) =>
        histLoop (some (match acc with
          | none => hist
          | some a => List.zipWith (· + ·) a hist)) (.edges es) (some (some lo, some hi)) chunks

/-- `histogram_from_generator(generator, bins, range)`. -/
def histogramFromGenerator (bins : Bins) (range : Option (Option Rat × Option Rat))
    (chunks : List (List (Option Rat))) : Except Err (Option (List Nat) × Bins) :=
  histLoop none bins range chunks

end Nilmtk
