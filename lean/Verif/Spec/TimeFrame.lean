import Verif.Model.TimeFrame
/-!
Specification vocabulary for TimeFrames: a TimeFrame denotes a set of instants.
It only uses the observable attributes `start`, `end`, `empty`, `include_end`.
-/
namespace Nilmtk

/-- `Mem t f`: the instant `t` lies in the frame `f`. `None` bounds are infinite; the end is
excluded unless `include_end` is set; an empty frame contains nothing. -/
def Mem (t : Int) (f : TF) : Prop :=
  f.empty = false ∧ (∀ s, f.start = some s → s ≤ t) ∧
    (∀ e, f.stop = some e → t < e ∨ (f.includeEnd = true ∧ t = e))

/-- The instant `t` lies in some frame of the list. -/
def Covered (fs : List TF) (t : Int) : Prop := ∃ f ∈ fs, Mem t f

/-- A frame whose visible bounds are in order, and which hides its bounds when empty:
what the constructor and `intersection` produce. -/
def WellFormed (f : TF) : Prop :=
  (∀ s e, f.start = some s → f.stop = some e → s < e) ∧
    (f.empty = true → f.start = none ∧ f.stop = none)

/-- The half-open bounded frame `[s, e)`. -/
def HalfOpen (f : TF) (s e : Int) : Prop :=
  f.empty = false ∧ f.includeEnd = false ∧ f.start = some s ∧ f.stop = some e

/-- `fs` are consecutive half-open frames that tile `[s, e)`: each is non-degenerate, starts where
the previous one ended, the first starts at `s`, the last ends at `e`. -/
inductive Tiles : Int → Int → List TF → Prop where
  | nil (s : Int) : Tiles s s []
  | cons (s m e : Int) (f : TF) (fs : List TF) :
      HalfOpen f s m → s < m → Tiles m e fs → Tiles s e (f :: fs)

/-- Consecutive bounded half-open frames, each starting at least `gap` after the end of the
previous one (`strict` = more than `gap`). -/
inductive Chain (rel : Int → Int → Prop) : List TF → Prop where
  | nil : Chain rel []
  | single (f : TF) (s e : Int) : HalfOpen f s e → s < e → Chain rel [f]
  | cons (f g : TF) (fs : List TF) (s e s' : Int) : HalfOpen f s e → s < e → g.start = some s' →
      rel e s' → Chain rel (g :: fs) → Chain rel (f :: g :: fs)

/-- Sorted, non-overlapping bounded half-open frames. -/
abbrev SortedDisjoint (fs : List TF) : Prop := Chain (fun e s' => e ≤ s') fs

/-- As `SortedDisjoint`, with holes strictly longer than `gap`. -/
abbrev SeparatedBy (gap : Int) (fs : List TF) : Prop := Chain (fun e s' => e + gap < s') fs

/-- `t` lies in a hole of length at most `gap` between two consecutive frames of `fs`. -/
def InSmallHole (gap : Int) (fs : List TF) (t : Int) : Prop :=
  ∃ pre f g post e s', fs = pre ++ f :: g :: post ∧ f.stop = some e ∧ g.start = some s' ∧
    e ≤ t ∧ t < s' ∧ s' - e ≤ gap

end Nilmtk
