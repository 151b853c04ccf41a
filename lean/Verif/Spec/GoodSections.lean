import Verif.Model.TimeFrame
/-!
Specification vocabulary for good sections: maximal runs of readings without a long gap.
-/
namespace Nilmtk
open TF

/-- Successive readings of the run are at most `msp` apart. -/
def GapFree (msp : Int) : List Int → Prop
  | [] => True
  | [_] => True
  | x :: y :: l => y - x ≤ msp ∧ GapFree msp (y :: l)

/-- `runs` splits the increasing list `idx` into its maximal gap-free runs: non-empty runs in order, no gap
above `msp` inside a run, a gap above `msp` between neighbouring runs. -/
inductive MaximalRuns (msp : Int) : List Int → List (List Int) → Prop where
  | nil : MaximalRuns msp [] []
  | single (r : List Int) : r ≠ [] → GapFree msp r → MaximalRuns msp r [r]
  | cons (r : List Int) (a b : Int) (idx : List Int) (runs : List (List Int)) :
      GapFree msp r → r.getLast? = some a → b - a > msp → MaximalRuns msp (b :: idx) runs →
      MaximalRuns msp (r ++ b :: idx) (r :: runs)

/-- The section of a run; `contd`: it began before the data, `goesOn`: it continues after the data. A
lone reading makes a section only together with readings outside. -/
def runSection (contd goesOn : Bool) (r : List Int) : List TF :=
  if 2 ≤ r.length ∨ contd = true ∨ goesOn = true then
    [mk' (if contd then none else r.head?) (if goesOn then none else r.getLast?)]
  else []

/-- The sections of all runs: only the first run can have begun before, only the last can go on. -/
def runSections (contd goesOn : Bool) : List (List Int) → List TF
  | [] => []
  | [r] => runSection contd goesOn r
  | r :: rs => runSection contd false r ++ runSections false goesOn rs

/-- The sections of a period ending at `hi`: one per run with at least two readings, from its first to
its last reading; a last run that goes on after the period is cut at `hi`. The very last section includes its
end. -/
def periodSections (goesOn : Bool) (hi : Int) (runs : List (List Int)) : List TF :=
  let fs := runSections false goesOn runs
  match fs.getLast? with
  | none => []
  | some f => fs.dropLast ++ [{ f with includeEnd := true, rawEnd := if goesOn then some hi else f.rawEnd }]

end Nilmtk
