import Mathlib.Data.List.Sort
import Verif.Model.Redd
import Verif.Model.DataSet
/-!
Model of the conversion of GREEND: nilmtk/dataset_converters/greend/convert_greend.py.

What `pd.read_csv` makes of the lines of a block is an input (`read`), which is told whether lines with too many fields are errors; the
keyword `error_bad_lines` with which the code asks for it exists in pandas before 2.0 only, later `read` is a `TypeError`. The order that
`DataFrame.sort_index` gives to rows with equal times is an input too. `str.strip()` is modelled for the white space of ASCII. Time zones
(they change how times are shown only), rounding to 32 bits, metadata and printing are not modelled. If several files of a house cannot be
read, the error of the first is taken.
-/
namespace Nilmtk

/-- A data frame: its columns, and its rows with the time in nanoseconds and the values by column. -/
structure GreendFrame where
  cols : List Str
  rows : List (Int × (Str → Option Rat))

/-- `needle in hay`. -/
def isIn (needle hay : Str) : Bool := hay.tails.any (fun t => needle.isPrefixOf t)

/-- `hay[hay.find(needle):]` when it is there. -/
def fromFind (needle : Str) : Str → Str
  | [] => []
  | c :: cs => if needle.isPrefixOf (c :: cs) then c :: cs else fromFind needle cs

/-- `s.strip(...)` for the characters of which `p` is true. -/
def stripBy (p : Char → Bool) (s : Str) : Str := ((s.dropWhile p).reverse.dropWhile p).reverse

/-- `line.strip('\0')`, convert_greend.py:65. -/
def stripNul (s : Str) : Str := stripBy (fun c => c.toNat == 0) s

/-- `line.strip()`. -/
def stripWhite (s : Str) : Str := stripBy (fun c => decide (c.toNat = 32 ∨ (9 ≤ c.toNat ∧ c.toNat ≤ 13) ∨ (28 ≤ c.toNat ∧ c.toNat ≤ 31))) s

/-- The lines to be left out of two files, convert_greend.py:89-92. -/
def greendBad (line : Str) : Bool := isIn "0.072.172091508705606".toList line || line == "1409660828.0753369,NULL,NUL".toList

/-- `_process_block` for a block that is there, convert_greend.py:41-55. -/
def greendBlock (read : List Str → Except Err GreendFrame)
    (sort : List (Int × (Str → Option Rat)) → List (Int × (Str → Option Rat))) (block : List Str) : Except Err GreendFrame :=
  match read block with
  | .error e => .error e
  | .ok f => .ok ⟨f.cols, sort f.rows⟩

/-- `_process_block`, convert_greend.py:37-55. -/
def greendProcess (read : List Str → Except Err GreendFrame)
    (sort : List (Int × (Str → Option Rat)) → List (Int × (Str → Option Rat))) (block : Option (List Str)) (dfs : List GreendFrame) :
    Except Err (List GreendFrame) :=
  match block with
  | none => .ok dfs
  | some b =>
    match greendBlock read sort b with
    | .error e => .error e
    | .ok f => .ok (dfs ++ [f])

/-- The loop over the lines, convert_greend.py:62-97: `block` is `block_data`, `previous` is `previous_header`. -/
def greendLines (read : List Str → Except Err GreendFrame)
    (sort : List (Int × (Str → Option Rat)) → List (Int × (Str → Option Rat))) (special : Bool) :
    List Str → Option (List Str) → Option Str → List GreendFrame → Except Err (List GreendFrame)
  | [], block, _, dfs => greendProcess read sort block dfs
  | l :: ls, block, previous, dfs =>
    let line := stripNul l
    if isIn "time".toList line then
      let line := if "time".toList.isPrefixOf line then line else fromFind "time".toList line
      if previous = some (stripWhite line) then greendLines read sort special ls block previous dfs
      else
        match greendProcess read sort block dfs with
        | .error e => .error e
        | .ok dfs' =>
          if special && greendBad line then greendLines read sort special ls (some []) (some (stripWhite line)) dfs'
          else greendLines read sort special ls (some [line]) (some (stripWhite line)) dfs'
    else if special && greendBad line then greendLines read sort special ls block previous dfs
    else
      match block with
      | none => .error .attributeError
      | some b => greendLines read sort special ls (some (b ++ [line])) previous dfs

/-- `special_check`, convert_greend.py:57-60. -/
def greendSpecial (filename : Str) : Bool :=
  (isIn "dataset_2014-01-28.csv".toList filename && isIn "building5".toList filename) ||
  (isIn "dataset_2014-09-02.csv".toList filename && isIn "building6".toList filename)

/-- `error_bad_lines`, convert_greend.py:44-46. -/
def greendStrict (filename : Str) : Bool := !(isIn "building5".toList filename && isIn "dataset_2014-02-04.csv".toList filename)

/-- `_get_blocks`, convert_greend.py:16-99. -/
def greendFile (read : Bool → List Str → Except Err GreendFrame)
    (sort : List (Int × (Str → Option Rat)) → List (Int × (Str → Option Rat))) (filename : Str) (lines : List Str) :
    Except Err (List GreendFrame) :=
  greendLines (read (greendStrict filename)) sort (greendSpecial filename) lines none none []

/-- The frames of the files in this order, convert_greend.py:136-146. -/
def greendFrames (read : Bool → List Str → Except Err GreendFrame)
    (sort : List (Int × (Str → Option Rat)) → List (Int × (Str → Option Rat))) : List (Str × List Str) → Except Err (List GreendFrame)
  | [] => .ok []
  | f :: fs =>
    match greendFile read sort f.1 f.2 with
    | .error e => .error e
    | .ok a =>
      match greendFrames read sort fs with
      | .error e => .error e
      | .ok b => .ok (a ++ b)

/-- The columns of `pd.concat(..., sort=False)`: those of the frames in the order in which they are first there. -/
def unionCols : List Str → List Str → List Str
  | acc, [] => acc
  | acc, c :: cs => unionCols (if c ∈ acc then acc else acc ++ [c]) cs

/-- `pd.concat(house_data_dfs, sort=False).sort_index()` without the rows whose time was there before, convert_greend.py:148-152. -/
def greendConcat (sort : List (Int × (Str → Option Rat)) → List (Int × (Str → Option Rat))) (frames : List GreendFrame) :
    Except Err (List Str × List (Int × (Str → Option Rat))) :=
  if frames.isEmpty then .error .valueError
  else .ok (unionCols [] (frames.flatMap GreendFrame.cols),
    dropDups [] (sort (frames.flatMap (fun f => f.rows.map (fun r => (r.1, fun c => if c ∈ f.cols then r.2 c else none))))))

/-- The loop over the columns, convert_greend.py:154-170; `m` is the number of the meter. -/
def greendPut (building : Nat) (rows : List (Int × (Str → Option Rat))) :
    List Str → Nat → RawStore (Option Rat) → RawStore (Option Rat) × Option Err
  | [], _, st => (st, none)
  | c :: cs, m, st =>
    match Key.ofNumbers building (some (m : Int)) with
    | .error e => (st, some e)
    | .ok key =>
      match key.repr with
      | .error e => (st, some e)
      | .ok text => greendPut building rows cs (m + 1) (st.put text ⟨[("power", "active")], rows.map (fun r => (r.1, r.2 c))⟩)

/-- An entry of the directory: its name, and what is in it if it is a directory, in the order in which it is listed. -/
abbrev GreendEntry := Str × Option (List (Str × List Str))

/-- The files of a house with their paths, convert_greend.py:133-135. -/
def greendTargets (root : Str) (house : Str) (files : List (Str × List Str)) : List (Str × List Str) :=
  (files.filter (fun f => "dataset".toList.isPrefixOf f.1)).map (fun f => (root ++ ['/'] ++ house ++ ['/'] ++ f.1, f.2))

/-- What is read of a house, convert_greend.py:132-152. With several processes the frames are sorted by file name. -/
def greendHouse (read : Bool → List Str → Except Err GreendFrame)
    (sort : List (Int × (Str → Option Rat)) → List (Int × (Str → Option Rat))) (useMp : Bool) (root house : Str)
    (files : List (Str × List Str)) : Except Err (List Str × List (Int × (Str → Option Rat))) :=
  let targets := greendTargets root house files
  let targets := if useMp then targets.insertionSort (fun a b => strLe a.1 b.1 = true) else targets
  match greendFrames read sort targets with
  | .error e => .error e
  | .ok frames => greendConcat sort frames

/-- The loop over the houses, convert_greend.py:129-174; `n` is `h - 1`. -/
def greendHouses (read : Bool → List Str → Except Err GreendFrame)
    (sort : List (Int × (Str → Option Rat)) → List (Int × (Str → Option Rat))) (useMp : Bool) (root : Str) :
    List (Str × List (Str × List Str)) → Nat → RawStore (Option Rat) → RawStore (Option Rat) × Option Err
  | [], _, st => (st, none)
  | h :: hs, n, st =>
    match greendHouse read sort useMp root h.1 h.2 with
    | .error e => (st, some e)
    | .ok (cols, rows) =>
      match greendPut (n + 1) rows cols 1 st with
      | (st', some e) => (st', some e)
      | (st', none) => greendHouses read sort useMp root hs (n + 1) st'

/-- The data part of `convert_greend`, convert_greend.py:107-174, with `_get_houses`, convert_greend.py:102-104. -/
def convertGreend (read : Bool → List Str → Except Err GreendFrame)
    (sort : List (Int × (Str → Option Rat)) → List (Int × (Str → Option Rat))) (useMp : Bool) (root : Str) (dir : List GreendEntry) :
    RawStore (Option Rat) × Option Err :=
  greendHouses read sort useMp root
    ((dir.filterMap (fun e => e.2.map (fun fs => (e.1, fs)))).insertionSort (fun a b => strLe a.1 b.1 = true)) 0 (fun _ => none)

end Nilmtk
