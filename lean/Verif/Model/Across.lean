import Verif.Model.LegacyDisag
/-!
Model of `FHMM.disaggregate_across_buildings`, `nilmtk/legacy/disaggregate/fhmm_exact.py:469-548`, for a model that
`train_across_buildings` made: the keys of `self.individual` are names of appliances and all of them are in
`self.list_of_appliances`.

The writing loop is that of `Model/LegacyDisag.lean`. `mains.power_series`, `mains.good_sections()`, `elec[instance]` and
`GaussianHMM.predict` are inputs. Keyword arguments are `sample_period` and `sections`.
-/
namespace Nilmtk

/-- What the function uses of a building: `mains.building()`, `elec.submeters().meters`, `elec[instance]`,
`mains.good_sections()`, and `mains.power_series` for a sample period and sections. -/
structure House where
  building : Nat
  submeters : List SubMeter
  getItem : Nat → Except Err SubMeter
  goodSections : Except Err (List TF)
  load : Int → List TF → Gen PowerChunk

/-- `get_meter_instance`, fhmm_exact.py:477-483; `none` is -1. `meter.appliances[0]` raises `IndexError` for a meter without
appliances. -/
def meterInstance (appliance : String) : List SubMeter → Except Err (Option Nat)
  | [] => .ok none
  | m :: ms =>
    match m.appliances with
    | [] => .error .indexError
    | a :: _ => if a.1 = appliance then .ok (some m.inst) else meterInstance appliance ms

/-- The loop that sets `self.meters`, fhmm_exact.py:499-505. -/
def acrossMeters (house : House) : List String → Except Err (List SubMeter)
  | [] => .ok []
  | a :: as =>
    match meterInstance a house.submeters with
    | .error e => .error e
    | .ok none => acrossMeters house as
    | .ok (some i) =>
      match house.getItem i with
      | .error e => .error e
      | .ok m =>
        match acrossMeters house as with
        | .error e => .error e
        | .ok ms => .ok (m :: ms)

/-- `disaggregate_chunk` and the columns for which the building has a meter, fhmm_exact.py:517-535. That a lookup raises here is
not possible, since the same lookups were made for `self.meters` (499-505). -/
def acrossEstimates (predict : List Rat → Except Err (List Nat)) (individual : List (String × List Int)) (house : House)
    (k : PowerChunk) : Except Err (List (Nat × List (Row (Option Rat)))) :=
  let known := k.rows.filterMap (fun r => r.2.map (fun x => (r.1, x)))
  match predict (known.map Prod.snd) with
  | .error e => .error e
  | .ok states =>
    .ok (individual.zipIdx.filterMap (fun m =>
      match meterInstance m.1.1 house.submeters with
      | .ok (some i) => some (i, List.zip (known.map Prod.fst)
          (states.map (fun s => some (((decodePower (individual.map Prod.snd) s).getD m.2 0 : Int) : Rat))))
      | _ => none))

/-- A trained `FHMM`: `self.individual` as names with rounded and sorted means, `self.list_of_appliances`, and `predict` of the
combined model. -/
structure AcrossModel where
  individual : List (String × List Int)
  appliances : List String
  predict : List Rat → Except Err (List Nat)

/-- The loop over the chunks of one building and saving its metadata, fhmm_exact.py:507-548. The flag says whether the local
variable `cols` is bound; it stays so for the buildings that follow. -/
def acrossChunks (m : AcrossModel) (samplePeriod : Int) (house : House) (meters : List SubMeter) (mains : Gen PowerChunk)
    (s : DisagStore × Bool) : (DisagStore × Bool) × Except Err Unit :=
  match disagLoop true 100 house.building (fun (u : Unit) k => (u, acrossEstimates m.predict m.individual house k)) mains.out ()
      ⟨s.1, [], none, s.2, false⟩ with
  | ((_, st), .error e) => ((st.store, st.cols), .error e)
  | ((_, st), .ok ()) =>
    match mains.err with
    | some e => ((st.store, st.cols), .error e)
    | none =>
      if st.available = false then ((st.store, st.cols), .ok ())
      else
        match st.measurement with
        | none => ((st.store, st.cols), .error .unboundLocal)
        | some ms =>
          let r := saveDisagMetadata st.store "FHMM" samplePeriod ms st.timeframes house.building (.supervised meters)
          ((r.1, st.cols), r.2)

/-- `disaggregate_across_buildings`, fhmm_exact.py:469-548. `buildings` is `ds.buildings`. The sections put into `load_kwargs` for
the first building stay there for the others (491-493). -/
def acrossLoop (m : AcrossModel) (buildings : Nat → Option House) :
    List Nat → Int → Option (List TF) → DisagStore × Bool → (DisagStore × Bool) × Except Err Unit
  | [], _, _, s => (s, .ok ())
  | b :: bs, samplePeriod, sections, s =>
    match buildings b with
    | none => (s, .error .keyError)
    | some house =>
      match house.goodSections with
      | .error e => (s, .error e)
      | .ok good =>
        let used := sections.getD good
        match acrossMeters house m.appliances with
        | .error e => (s, .error e)
        | .ok meters =>
          match acrossChunks m samplePeriod house meters (house.load samplePeriod used) s with
          | (s', .error e) => (s', .error e)
          | (s', .ok ()) => acrossLoop m buildings bs samplePeriod (some used) s'

/-- The whole call, with the defaults (490-493); without a model `_pre_disaggregation_checks` raises (disaggregator.py:81-83) as
soon as the first building was looked up. -/
def disaggregateAcross (trained : Bool) (m : AcrossModel) (buildings : Nat → Option House) (list : List Nat)
    (samplePeriod : Option Int) (sections : Option (List TF)) (store : DisagStore) : DisagStore × Except Err Unit :=
  if trained = false then
    match list with
    | [] => (store, .ok ())
    | b :: _ => (store, .error (if (buildings b).isNone then .keyError else .runtimeError))
  else
    let r := acrossLoop m buildings list (samplePeriod.getD 60) sections (store, false)
    (r.1.1, r.2)

end Nilmtk
