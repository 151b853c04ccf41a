import Verif.Model.Redd
/-!
Model of the conversion of HES: nilmtk/dataset_converters/hes/convert_hes.py.

`pd.read_csv(..., squeeze=True)` for the list of houses exists in pandas before 2.0 only, and the list is not used further; the model starts
after it. The rounding to 32 bits, the parsing of dates and the writing of the YAML files are not modelled. The order that
`DataFrame.sort_index` gives to rows with equal times is an input.
-/
namespace Nilmtk

/-- A row of a file: `house id`, `appliance code`, the time in nanoseconds and `data`, convert_hes.py:48. -/
structure HesRow where
  house : Int
  code : Int
  time : Int
  data : Rat
  deriving DecidableEq, Repr

/-- The keys of `groupby`: each value once, in ascending order. -/
def groupKeys (l : List Int) : List Int := l.dedup.insertionSort (· ≤ ·)

/-- `house_codes`, `house_appliance_codes` and the store, convert_hes.py:115-118. -/
structure HesState where
  houses : List Int
  codes : Int → List Int
  store : RawStore Rat

/-- `if x not in l: l.append(x)`, convert_hes.py:160-161, 170-171. -/
def hesAdd (l : List Int) (x : Int) : List Int := if x ∈ l then l else l ++ [x]

/-- `store.append(str(key), df)`, hdfdatastore.py:151-165. -/
def RawStore.appendRows (st : RawStore Rat) (k : Str) (rows : List (Int × Rat)) : RawStore Rat :=
  st.put k ⟨[("power", "active")], (match st k with | none => [] | some t => t.rows) ++ rows⟩

/-- `_process_meter_in_chunk`, convert_hes.py:245-256. -/
def hesProcess (sort : List (Int × Rat) → List (Int × Rat)) (house meter : Nat) (chunk : List HesRow) (st : RawStore Rat) :
    Except Err (RawStore Rat) :=
  match Key.ofNumbers house (some (meter : Int)) with
  | .error e => .error e
  | .ok key =>
    match key.repr with
    | .error e => .error e
    | .ok text => .ok (st.appendRows text (sort (chunk.map (fun r => (r.time, r.data)))))

/-- The loop over the appliances, convert_hes.py:169-173. The groups are those of the whole chunk, and what is stored for each of them are all
rows of the house. -/
def hesAppliances (sort : List (Int × Rat) → List (Int × Rat)) (house : Int) (houseRows : List HesRow) :
    List Int → HesState → HesState × Option Err
  | [], s => (s, none)
  | a :: as, s =>
    let codes := hesAdd (s.codes house) a
    let s := { s with codes := fun h => if h = house then codes else s.codes h }
    match hesProcess sort (s.houses.idxOf house + 1) (codes.idxOf a + 1) houseRows s.store with
    | .error e => (s, some e)
    | .ok st => hesAppliances sort house houseRows as { s with store := st }

/-- The loop over the houses of a chunk, convert_hes.py:159-173. -/
def hesHouses (sort : List (Int × Rat) → List (Int × Rat)) (chunk : List HesRow) : List Int → HesState → HesState × Option Err
  | [], s => (s, none)
  | h :: hs, s =>
    match hesAppliances sort h (chunk.filter (fun r => decide (r.house = h))) (groupKeys (chunk.map HesRow.code))
        { s with houses := hesAdd s.houses h } with
    | (s', some e) => (s', some e)
    | (s', none) => hesHouses sort chunk hs s'

/-- The loop over the chunks of a file, convert_hes.py:142-175; `i` is `chunk_i`. -/
def hesChunks (sort : List (Int × Rat) → List (Int × Rat)) (max : Option Int) : List (List HesRow) → Int → HesState → HesState × Option Err
  | [], _, s => (s, none)
  | c :: cs, i, s =>
    if max.any (fun m => decide (m ≤ i)) then (s, none)
    else
      let chunk := c.map (fun r => { r with data := r.data * 10 })
      match hesHouses sort chunk (groupKeys (chunk.map HesRow.house)) s with
      | (s', some e) => (s', some e)
      | (s', none) => hesChunks sort max cs (i + 1) s'

/-- The loop over the files, convert_hes.py:128-175; `none` is a file that cannot be opened. -/
def hesFiles (sort : List (Int × Rat) → List (Int × Rat)) (max : Option Int) : List (Option (List (List HesRow))) → HesState → HesState × Option Err
  | [], s => (s, none)
  | none :: fs, s => hesFiles sort max fs s
  | some cs :: fs, s =>
    match hesChunks sort max cs 0 s with
    | (s', some e) => (s', some e)
    | (s', none) => hesFiles sort max fs s'

/-- The data part of `convert_hes`, convert_hes.py:92-178, into an empty store. -/
def convertHes (sort : List (Int × Rat) → List (Int × Rat)) (max : Option Int) (files : List (Option (List (List HesRow)))) :
    HesState × Option Err :=
  hesFiles sort max files ⟨[], fun _ => [], fun _ => none⟩

/-- An entry of `building_metadata['appliances']`, convert_hes.py:213-226. -/
structure HesAppliance where
  originalName : String
  meter : Nat
  type : String
  number : Nat
  deriving DecidableEq, Repr

/-- `MAINS_CODES`, `CIRCUIT_CODES` and `TEMPERATURE_CODES`, convert_hes.py:51-53. -/
def hesMains : List Int := [240, 241]
def hesCircuits : List Int := [208, 209, 210, 211, 212, 213, 214, 215, 216, 217, 222]
def hesTemperatures : List Int := [251, 252, 253, 254, 255]

/-- The loop over the codes of a house, convert_hes.py:194-226: `all` are all its codes, `lookup` has code, name and nilmtk's name, `counter`
is `instance_counter`. The keys of `elec_meters` are the meters of the entries, all with `device_model: wattmeter` only. -/
def hesMetadata (lookup : List (Int × String × String)) (all : List Int) : List Int → (String → Nat) → Except Err (List HesAppliance)
  | [], _ => .ok []
  | a :: as, counter =>
    if a ∈ hesMains then .ok []
    else if a ∈ hesCircuits then .ok []
    else if a ∈ hesTemperatures then .ok []
    else
      match lookup.find? (fun r => decide (r.1 = a)) with
      | none => .error .indexError
      | some (_, name, type) =>
        match hesMetadata lookup all as (fun t => if t = type then counter t + 1 else counter t) with
        | .error e => .error e
        | .ok rest => .ok (⟨name, all.idxOf a + 1, type, counter type + 1⟩ :: rest)

end Nilmtk
