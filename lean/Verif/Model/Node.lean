import Verif.Model.Py
/-!
Model of `find_unsatisfied_requirements` and `Node.check_requirements` in `nilmtk/node.py`.

Metadata are nested dictionaries with string keys. Every value that is not a dictionary is an atom; atoms are compared
with Python's `==`, which is modelled by equality. A dictionary is never equal to an atom. Messages are modelled by
the data they are formatted from.
-/
namespace Nilmtk

/-- A value that is not a dictionary: a string, or anything else (up to `==`). -/
inductive Atom where
  | str (s : String)
  | other (n : Nat)
  deriving DecidableEq, Repr

mutual
/-- A metadata value. -/
inductive Val where
  | atom (a : Atom)
  | dict (d : Dict)
/-- A dictionary in iteration order. -/
inductive Dict where
  | nil
  | cons (key : String) (value : Val) (rest : Dict)
end

/-- `d[key]`, `none` for `KeyError`. -/
def Dict.get? (k : String) : Dict → Option Val
  | .nil => none
  | .cons k' v rest => if k = k' then some v else rest.get? k

/-- `st[key]` for any value: subscripting an atom (string, number, list, `None`) with a string raises
`TypeError`. -/
def Val.getItem (k : String) : Val → Except Err (Option Val)
  | .atom _ => .error .typeError
  | .dict d => .ok (d.get? k)

/-- The data of a message. -/
inductive Unsat where
  | missing (key : String) (value : Val)
  | wrong (key : String) (value : Atom) (actual : Val)

/-- `value != 'ANY VALUE' and cond_value != value`, node.py:125. -/
def atomViolated (a : Atom) (c : Val) : Bool :=
  decide (a ≠ .str "ANY VALUE") &&
    (match c with
      | .atom b => decide (b ≠ a)
      | .dict _ => true)

mutual
/-- The `else` branch, node.py:122-128, for the requirement `value` and the value `cond` found. -/
def checkVal (key : String) (cond : Val) : Val → Except Err (List Unsat)
  | .atom a => .ok (if atomViolated a cond then [.wrong key a cond] else [])
  | .dict r => unsatisfiedRequirements cond r
/-- `unsatisfied_requirements(st, req)`, node.py:112-128: the messages appended, or the `TypeError`. -/
def unsatisfiedRequirements (st : Val) : Dict → Except Err (List Unsat)
  | .nil => .ok []
  | .cons key value rest =>
    match st.getItem key with
    | .error e => .error e
    | .ok none => (unsatisfiedRequirements st rest).map (fun l => .missing key value :: l)
    | .ok (some cond) =>
      match checkVal key cond value with
      | .error e => .error e
      | .ok l => (unsatisfiedRequirements st rest).map (fun l' => l ++ l')
end

/-- `find_unsatisfied_requirements`, node.py:96-131. -/
def findUnsatisfiedRequirements (state requirements : Dict) : Except Err (List Unsat) :=
  unsatisfiedRequirements (.dict state) requirements

/-- `Node.check_requirements`, node.py:46-60. -/
def checkRequirements (state requirements : Dict) : Except Err Unit :=
  match findUnsatisfiedRequirements state requirements with
  | .error e => .error e
  | .ok [] => .ok ()
  | .ok (_ :: _) => .error .unsatisfiedRequirements

end Nilmtk
