import Verif.Model.HDF
import Verif.Spec.TimeFrame
/-!
Specification vocabulary for loading data in chunks.
-/
namespace Nilmtk

/-- Timestamps strictly increase. -/
def Increasing {α : Type} (rows : List (Row α)) : Prop := rows.Pairwise (fun a b => a.1 < b.1)

/-- Join chunks that repeat one row: drop the first row of every chunk but the first. -/
def joinOverlapping {β : Type} : List (List β) → List β
  | [] => []
  | c :: cs => c ++ (cs.map List.tail).flatten

/-- Consecutive elements of a list are related. -/
inductive Consecutive {β : Type} (R : β → β → Prop) : List β → Prop where
  | nil : Consecutive R []
  | single (a : β) : Consecutive R [a]
  | cons (a b : β) (l : List β) : R a b → Consecutive R (b :: l) → Consecutive R (a :: b :: l)

/-- The last row of `c` is the first row of `d`. -/
def SharesRow {α : Type} (c d : Chunk α) : Prop :=
  ∃ r, c.rows.getLast? = some r ∧ d.rows.head? = some r

/-- The chunk's look-ahead is what the table holds right after the chunk's rows, at most `n` rows. -/
def LooksAhead {α : Type} (table : List (Row α)) (n : Nat) (c : Chunk α) : Prop :=
  ∃ pre post, table = pre ++ c.rows ++ post ∧ c.look = some (post.take n)

end Nilmtk
