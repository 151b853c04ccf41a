/-!
Common vocabulary of the model: Python exceptions as values, generators as lists.

Instants and durations are integers (`Int`), in nanoseconds, the resolution of `pd.Timestamp`.
Simplification: time zones are not modelled.
-/
namespace Nilmtk

/-- The Python exception classes that the modelled functions can raise. -/
inductive Err where
  | valueError | typeError | keyError | indexError | runtimeError | attributeError
  | assertionError | exception | nameError | zeroDivisionError | measurementError
  | unsatisfiedRequirements | notImplemented | unboundLocal | fileNotFound
  deriving DecidableEq, Repr

/-- A Python generator that has been run to its end: the values it yielded, and the exception
that ended it, if any. -/
structure Gen (α : Type) where
  out : List α
  err : Option Err
  deriving DecidableEq, Repr

namespace Gen
/-- A generator that yields `x` and then behaves like `g`. -/
def cons {α : Type} (x : α) (g : Gen α) : Gen α := ⟨x :: g.out, g.err⟩
/-- A generator that finishes without yielding. -/
def done {α : Type} : Gen α := ⟨[], none⟩
/-- A generator that raises at once. -/
def raise {α : Type} (e : Err) : Gen α := ⟨[], some e⟩
/-- `for x in g: yield x` followed by the rest `h` (not reached when `g` raises). -/
def append {α : Type} (g h : Gen α) : Gen α :=
  match g.err with
  | some e => ⟨g.out, some e⟩
  | none => ⟨g.out ++ h.out, h.err⟩
end Gen

end Nilmtk
