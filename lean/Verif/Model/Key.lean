import Verif.Model.Py
/-!
Model of `nilmtk/datastore/key.py` and of `join_key` in `nilmtk/datastore/datastore.py`.

Strings are lists of characters. Simplification: `int()` is modelled for ASCII input.
-/
namespace Nilmtk

/-- A Python string. -/
abbrev Str := List Char

/-- `s.strip('/')`. -/
def stripSlash (s : Str) : Str := ((s.dropWhile (· == '/')).reverse.dropWhile (· == '/')).reverse

/-- `s.split('/')`. -/
def splitSlash : Str → List Str
  | [] => [[]]
  | c :: cs =>
    if c = '/' then [] :: splitSlash cs
    else
      match splitSlash cs with
      | [] => [[c]]
      | p :: ps => (c :: p) :: ps

/-- `s.replace(pat, "")` for a non-empty `pat`: occurrences are removed from left to right. -/
def removeAll (pat : Str) (s : Str) : Str :=
  match s with
  | [] => []
  | c :: cs =>
    if pat.isPrefixOf (c :: cs) then removeAll pat (cs.drop (pat.length - 1))
    else c :: removeAll pat cs
  termination_by s.length
  decreasing_by all_goals simp only [List.length_cons, List.length_drop]; omega

/-- The value of a decimal digit. -/
def digitVal (c : Char) : Option Nat := if '0' ≤ c ∧ c ≤ '9' then some (c.toNat - '0'.toNat) else none

/-- Digits with single underscores between them, continuing the number `acc`; `wasDigit` tells whether the previous
character was a digit. -/
def parseDigits (acc : Nat) (wasDigit : Bool) : Str → Option Nat
  | [] => if wasDigit then some acc else none
  | c :: cs =>
    match digitVal c with
    | some d => parseDigits (acc * 10 + d) true cs
    | none => if c = '_' ∧ wasDigit = true then parseDigits acc false cs else none

/-- `int(s)`: surrounding white space, an optional sign, digits; `none` for `ValueError`. -/
def pyInt (s : Str) : Option Int :=
  let ws : Char → Bool := fun c => c == ' ' || c == '\t' || c == '\n' || c == '\r'
  match ((s.dropWhile ws).reverse.dropWhile ws).reverse with
  | '-' :: cs => (parseDigits 0 false cs).map (fun n : Nat => -(n : Int))
  | '+' :: cs => (parseDigits 0 false cs).map (fun n : Nat => (n : Int))
  | cs => (parseDigits 0 false cs).map (fun n : Nat => (n : Int))

/-- The character of a digit. -/
def digitChar (d : Nat) : Char := Char.ofNat ('0'.toNat + d)

/-- `"{:d}".format(n)` for a natural number. -/
def formatNat (n : Nat) : Str :=
  if n < 10 then [digitChar n] else formatNat (n / 10) ++ [digitChar (n % 10)]

/-- A `Key`. -/
structure Key where
  building : Int
  meter : Option Int
  utility : Option Str
  deriving DecidableEq, Repr

/-- `Key._check`, key.py:40-45. -/
def Key.check (k : Key) : Except Err Unit :=
  if k.building ≥ 1 ∧ ∀ m, k.meter = some m → m ≥ 1 then .ok () else .error .assertionError

/-- `Key.__init__(building=..., meter=...)`, key.py:21-24, 38. -/
def Key.ofNumbers (building : Int) (meter : Option Int) : Except Err Key :=
  match Key.check ⟨building, meter, none⟩ with
  | .error e => .error e
  | .ok () => .ok ⟨building, meter, none⟩

/-- The meter part, key.py:34-38: `split[2]` when there are exactly three parts. -/
def parseMeter (parts : List Str) : Except Err (Option Int) :=
  match parts with
  | [_, _, m] =>
    if "meter".toList.isPrefixOf m then
      match pyInt (removeAll "meter".toList m) with
      | none => .error .valueError
      | some i => .ok (some i)
    else .error .assertionError
  | _ => .ok none

/-- `Key.__init__(string)`, key.py:25-38. -/
def Key.parse (s : Str) : Except Err Key :=
  let parts := splitSlash (stripSlash s)
  let first := parts.headD []
  if "building".toList.isPrefixOf first then
    match pyInt (removeAll "building".toList first) with
    | none => .error .valueError
    | some b =>
      match parseMeter parts with
      | .error e => .error e
      | .ok m =>
        match Key.check ⟨b, m, parts[1]?⟩ with
        | .error e => .error e
        | .ok () => .ok ⟨b, m, parts[1]?⟩
  else .error .assertionError

/-- The text built by `Key.__repr__`, key.py:49-52. -/
def Key.text (k : Key) : Str :=
  "/building".toList ++ formatNat k.building.toNat ++
    (match k.meter with
      | none => []
      | some m => "/elec/meter".toList ++ formatNat m.toNat)

/-- `Key.__repr__`, key.py:47-52. -/
def Key.repr (k : Key) : Except Err Str :=
  match k.check with
  | .error e => .error e
  | .ok () => .ok k.text

/-- The loop of `join_key`, datastore.py:203-206. -/
def joinLoop : Str → List Str → Str
  | key, [] => key
  | key, a :: as => joinLoop (if stripSlash a = [] then key else key ++ (stripSlash a ++ ['/'])) as

/-- `join_key`, datastore.py:190-209. -/
def joinKey (args : List Str) : Str :=
  let key := joinLoop ['/'] args
  if key.length > 1 then key.dropLast else key

end Nilmtk
