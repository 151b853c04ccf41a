import Verif.Model.Mean
import Verif.Model.Key
import Verif.Model.CO
/-!
Saving and loading of the `Mean` disaggregator, `nilmtk/disaggregate/mean.py:9-16,27-28,41-50`, on the level of the text that
is written, and `Disaggregator.clear_model_checkpoints`, `nilmtk/disaggregate/disaggregator.py:72-85`.

`json.dumps` and `json.loads` of the Python standard library are modelled for the texts that occur: dictionaries with text keys
whose values are dictionaries with text keys and integer values. Any other text is refused with `ValueError`, which is what
`json.JSONDecodeError` is; for a valid JSON text of another shape `json.loads` would succeed and a later method would raise. Names
of appliances are texts of Unicode scalar values, that is without lone surrogates. The file system is a dictionary from folders to the content of `model.txt` in
them; creating a folder and writing always succeed.
-/
namespace Nilmtk

/-! ### The standard library: writing -/

/-- A hexadecimal digit as `'{0:04x}'` writes it (`json/encoder.py`, `ensure_ascii`). -/
def hexDigit (d : Nat) : Char := "0123456789abcdef".toList.getD d '0'

/-- `'\\u{0:04x}'.format(n)` for `n < 65536`. -/
def hexEscape (n : Nat) : Str :=
  ['\\', 'u', hexDigit (n / 4096 % 16), hexDigit (n / 256 % 16), hexDigit (n / 16 % 16), hexDigit (n % 16)]

/-- One character inside a JSON string, `py_encode_basestring_ascii` of `json/encoder.py`: a character above 0xffff is written as
a pair of surrogates. -/
def jsonEscape (c : Char) : Str :=
  if c = '"' then ['\\', '"']
  else if c = '\\' then ['\\', '\\']
  else if c = '\n' then ['\\', 'n']
  else if c = '\r' then ['\\', 'r']
  else if c = '\t' then ['\\', 't']
  else if c = '\x08' then ['\\', 'b']
  else if c = '\x0c' then ['\\', 'f']
  else if 32 ≤ c.toNat ∧ c.toNat ≤ 126 then [c]
  else if c.toNat < 65536 then hexEscape c.toNat
  else hexEscape (55296 + (c.toNat - 65536) / 1024) ++ hexEscape (56320 + (c.toNat - 65536) % 1024)

/-- A JSON string. -/
def jsonString (s : Str) : Str := '"' :: (s.flatMap jsonEscape ++ ['"'])

/-- A JSON integer. -/
def jsonInt (n : Int) : Str := if n < 0 then '-' :: formatNat n.natAbs else formatNat n.natAbs

/-- The items of a JSON object, with the separators `', '` and `': '`. -/
def jsonItems {α : Type} (value : α → Str) : List (Str × α) → Str
  | [] => []
  | [(k, v)] => jsonString k ++ (':' :: ' ' :: value v)
  | (k, v) :: rest => jsonString k ++ (':' :: ' ' :: value v) ++ (',' :: ' ' :: jsonItems value rest)

/-- A JSON object. -/
def jsonObject {α : Type} (value : α → Str) (d : List (Str × α)) : Str := '{' :: (jsonItems value d ++ ['}'])

/-! ### The standard library: reading -/

/-- White space of JSON, `WHITESPACE_STR` in `json/decoder.py`. -/
def skipBlank : Str → Str
  | [] => []
  | c :: cs => if c = ' ' ∨ c = '\t' ∨ c = '\n' ∨ c = '\r' then skipBlank cs else c :: cs

/-- A hexadecimal digit. -/
def hexVal (c : Char) : Option Nat :=
  if 48 ≤ c.toNat ∧ c.toNat ≤ 57 then some (c.toNat - 48)
  else if 97 ≤ c.toNat ∧ c.toNat ≤ 102 then some (c.toNat - 87)
  else if 65 ≤ c.toNat ∧ c.toNat ≤ 70 then some (c.toNat - 55)
  else none

/-- Four hexadecimal digits, `_decode_uXXXX` of `json/decoder.py`. -/
def hexFour : Str → Option (Nat × Str)
  | a :: b :: c :: d :: rest =>
    match hexVal a, hexVal b, hexVal c, hexVal d with
    | some w, some x, some y, some z => some (((w * 16 + x) * 16 + y) * 16 + z, rest)
    | _, _, _, _ => none
  | _ => none

/-- The second half of a pair of surrogates. -/
def lowSurrogate : Str → Option (Nat × Str)
  | '\\' :: 'u' :: rest =>
    match hexFour rest with
    | some (n, rest') => if 56320 ≤ n ∧ n ≤ 57343 then some (n, rest') else none
    | none => none
  | _ => none

/-- The character after `\u`. A lone surrogate is refused here. -/
def escapedUnit (cs : Str) : Option (Char × Str) :=
  match hexFour cs with
  | none => none
  | some (n, rest) =>
    if 55296 ≤ n ∧ n ≤ 56319 then
      match lowSurrogate rest with
      | some (m, rest') => some (Char.ofNat (65536 + (n - 55296) * 1024 + (m - 56320)), rest')
      | none => none
    else if 56320 ≤ n ∧ n ≤ 57343 then none
    else some (Char.ofNat n, rest)

/-- The character after a backslash, `BACKSLASH` in `json/decoder.py`. -/
def afterBackslash : Str → Option (Char × Str)
  | '"' :: r => some ('"', r)
  | '\\' :: r => some ('\\', r)
  | '/' :: r => some ('/', r)
  | 'b' :: r => some ('\x08', r)
  | 'f' :: r => some ('\x0c', r)
  | 'n' :: r => some ('\n', r)
  | 'r' :: r => some ('\r', r)
  | 't' :: r => some ('\t', r)
  | 'u' :: r => escapedUnit r
  | _ => none

/-- The rest of a JSON string after the opening quote, `py_scanstring` of `json/decoder.py` with `strict=True`: control characters
are refused. The fuel bounds the number of characters. -/
def scanString : Nat → Str → Option (Str × Str)
  | 0, _ => none
  | _ + 1, [] => none
  | fuel + 1, c :: cs =>
    if c = '"' then some ([], cs)
    else if c = '\\' then
      match afterBackslash cs with
      | none => none
      | some (x, rest) => (scanString fuel rest).map (fun p => (x :: p.1, p.2))
    else if c.toNat < 32 then none
    else (scanString fuel cs).map (fun p => (c :: p.1, p.2))

/-- The longest run of digits and its value. -/
def scanDigits : Nat → Str → Nat × Str
  | acc, [] => (acc, [])
  | acc, c :: cs =>
    match digitVal c with
    | some d => scanDigits (acc * 10 + d) cs
    | none => (acc, c :: cs)

/-- An unsigned JSON number `0|[1-9]\d*`. -/
def scanNat : Str → Option (Nat × Str)
  | [] => none
  | c :: cs =>
    match digitVal c with
    | none => none
    | some d => if d = 0 then some (0, cs) else some (scanDigits d cs)

/-- A JSON number without fraction and exponent, `NUMBER_RE` in `json/scanner.py`. -/
def scanSigned : Str → Option (Int × Str)
  | [] => none
  | c :: cs =>
    if c = '-' then (scanNat cs).map (fun p : Nat × Str => (-(p.1 : Int), p.2))
    else (scanNat (c :: cs)).map (fun p : Nat × Str => ((p.1 : Int), p.2))

/-- A JSON integer; a number that goes on with a fraction or an exponent is refused here. -/
def scanInt (cs : Str) : Option (Int × Str) :=
  match scanSigned cs with
  | none => none
  | some (n, rest) => if rest.head? ∈ [some '.', some 'e', some 'E'] then none else some (n, rest)

/-- The items of a JSON object that has one, `JSONObject` of `json/decoder.py`. The fuel bounds the number of items. -/
def scanItems {α : Type} (value : Str → Option (α × Str)) : Nat → Str → Option (List (Str × α) × Str)
  | 0, _ => none
  | fuel + 1, cs =>
    match cs with
    | '"' :: r =>
      match scanString (r.length + 1) r with
      | none => none
      | some (k, r1) =>
        match skipBlank r1 with
        | ':' :: r2 =>
          match value (skipBlank r2) with
          | none => none
          | some (v, r3) =>
            match skipBlank r3 with
            | '}' :: r4 => some ([(k, v)], r4)
            | ',' :: r4 => (scanItems value fuel (skipBlank r4)).map (fun p => ((k, v) :: p.1, p.2))
            | _ => none
        | _ => none
    | _ => none

/-- A JSON object. -/
def scanObject {α : Type} (value : Str → Option (α × Str)) : Str → Option (List (Str × α) × Str)
  | '{' :: r =>
    match skipBlank r with
    | '}' :: r1 => some ([], r1)
    | r1 => scanItems value (r1.length + 1) r1
  | _ => none

/-- `json.loads`: one value, with white space around it. -/
def jsonLoads (text : Str) : Except Err (List (Str × List (Str × Int))) :=
  match scanObject (scanObject scanInt) (skipBlank text) with
  | none => .error .valueError
  | some (d, rest) => if skipBlank rest = [] then .ok d else .error .valueError

/-! ### mean.py -/

/-- `{'sum': ..., 'n_elem': ...}` as a dictionary, mean.py:23. -/
def statDict (s : MeanStat) : List (Str × Int) := [("sum".toList, s.sum), ("n_elem".toList, (s.nElem : Int))]

/-- `json.dumps(self.model)`, mean.py:42. -/
def meanDumps (m : MeanModel) : Str :=
  jsonObject (jsonObject jsonInt) (m.map (fun e => (e.1.toList, statDict e.2)))

/-- The last value under a key: a later item of a JSON object replaces an earlier one. -/
def lastValue {α : Type} (k : Str) (d : List (Str × α)) : Option α := d.reverse.lookup k

/-- A loaded dictionary as the `sum` and `n_elem` of an appliance. -/
def dictStat (d : List (Str × Int)) : Option MeanStat :=
  match lastValue "sum".toList d, lastValue "n_elem".toList d with
  | some s, some n => if 0 ≤ n then some ⟨s, n.toNat⟩ else none
  | _, _ => none

/-- The loaded dictionary as the model. -/
def dictModel : MeanModel → List (Str × List (Str × Int)) → Except Err MeanModel
  | m, [] => .ok m
  | m, (k, d) :: rest =>
    match dictStat d with
    | none => .error .valueError
    | some s => dictModel (m.set (String.ofList k) s) rest

/-- `json.loads(model_string)`, mean.py:49-50. The `strip` of line 49 removes white space that `json.loads` would skip as well. -/
def meanLoads (text : Str) : Except Err MeanModel :=
  match jsonLoads text with
  | .error e => .error e
  | .ok d => dictModel [] d

/-- The files `model.txt`, by folder. -/
abbrev ModelFiles := List (String × Str)

/-- `params`, mean.py:12-13: a missing entry is none. -/
structure ModelParams where
  savePath : Option String
  loadPath : Option String
  deriving DecidableEq

/-- The truth value of a path: none and the empty text are false. -/
def truthyPath : Option String → Option String
  | none => none
  | some p => if p = "" then none else some p

/-- A `Mean` object. -/
structure MeanObj where
  model : MeanModel
  params : ModelParams
  deriving DecidableEq

/-- `Mean.save_model`, mean.py:41-45. -/
def MeanObj.saveModel (o : MeanObj) (folder : String) (fs : ModelFiles) : ModelFiles :=
  dictSet fs folder (meanDumps o.model)

/-- `Mean.load_model`, mean.py:47-50. -/
def MeanObj.loadModel (o : MeanObj) (folder : String) (fs : ModelFiles) : Except Err MeanObj :=
  match fs.lookup folder with
  | none => .error .fileNotFound
  | some text =>
    match meanLoads text with
    | .error e => .error e
    | .ok m => .ok { o with model := m }

/-- `Mean.__init__`, mean.py:9-16. -/
def meanInit (params : ModelParams) (fs : ModelFiles) : Except Err MeanObj :=
  match truthyPath params.loadPath with
  | none => .ok ⟨[], params⟩
  | some p => MeanObj.loadModel ⟨[], params⟩ p fs

/-- The loop of `partial_fit`, mean.py:20-26, with what it leaves in `self.model` when it raises. -/
def meanFitLoop (m : MeanModel) : List (String × List (List (Option Rat))) → MeanModel × Option Err
  | [] => (m, none)
  | (name, frames) :: rest =>
    match meanFitOne m name frames with
    | .error e => (m, some e)
    | .ok m' => meanFitLoop m' rest

/-- `Mean.partial_fit`, mean.py:18-28: the object and the files afterwards, and the exception. -/
def MeanObj.partialFit (o : MeanObj) (call : List (String × List (List (Option Rat)))) (fs : ModelFiles) :
    MeanObj × ModelFiles × Option Err :=
  match meanFitLoop o.model call with
  | (m, some e) => ({ o with model := m }, fs, some e)
  | (m, none) =>
    let o' : MeanObj := { o with model := m }
    match truthyPath o.params.savePath with
    | none => (o', fs, none)
    | some p => (o', o'.saveModel p fs, none)

/-- Calls of `partial_fit` one after the other, whatever they raise. -/
def MeanObj.fitAll (o : MeanObj) : List (List (String × List (List (Option Rat)))) → ModelFiles → MeanObj × ModelFiles
  | [], fs => (o, fs)
  | c :: cs, fs => (o.partialFit c fs).1.fitAll cs (o.partialFit c fs).2.1

/-! ### The other disaggregators -/

/-- `__init__` of `CO`, `FHMMExact` and `Hart85`, combinatorial_optimisation.py:38-47, fhmm_exact.py:172-181, hart_85.py:201-208, as
far as files are concerned: `load_model` is inherited, disaggregator.py:64-70, and raises. -/
def otherInit (params : ModelParams) : Except Err ModelParams :=
  match truthyPath params.loadPath with
  | none => .ok params
  | some _ => .error .notImplemented

/-! ### clear_model_checkpoints -/

/-- An entry of the working directory. -/
structure DirEntry where
  name : Str
  isFile : Bool
  /-- whether `os.remove` works -/
  removable : Bool
  deriving DecidableEq

/-- The condition of disaggregator.py:83. -/
def isCheckpoint (pre : Str) (e : DirEntry) : Bool :=
  e.isFile && pre.isPrefixOf e.name && ".h5".toList.isSuffixOf e.name

/-- The loop of disaggregator.py:81-85 over the entries in the order of `os.scandir`: what is left, and whether `os.remove` raised. -/
def clearLoop (pre : Str) : List DirEntry → List DirEntry × Bool
  | [] => ([], false)
  | e :: es =>
    if isCheckpoint pre e then
      if e.removable then clearLoop pre es else (e :: es, true)
    else ((e :: (clearLoop pre es).1), (clearLoop pre es).2)

/-- `Disaggregator.clear_model_checkpoints`, disaggregator.py:72-85. -/
def clearModelCheckpoints (pre : Option Str) (dir : List DirEntry) : List DirEntry × Bool :=
  match pre with
  | none => (dir, false)
  | some p => clearLoop p dir

end Nilmtk
