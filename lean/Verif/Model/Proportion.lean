import Verif.Model.Wiring
import Verif.Model.Losses
import Verif.Model.Measurement
/-!
Model of the energy of a group and of proportions of energy: `MeterGroup.total_energy`, `proportion_of_energy_submetered`
(metergroup.py), `Electric.proportion_of_energy`, `proportion_of_upstream` and `average_energy_per_period` (electric.py).

The energy of one `ElecMeter` is an input here, see `Model/Energy` and `Model/Cache`. Arithmetic is exact.
-/
namespace Nilmtk

/-- The `pd.Series` returned by `total_energy`: AC types, each once, with their energy; `none` is NaN. -/
abbrev EnergySeries := List (String × Option Rat)

/-- `x + y` of two floats, NaN when one is. -/
def energyPlus : Option Rat → Option Rat → Option Rat
  | some x, some y => some (x + y)
  | _, _ => none

/-- `a += b` for two `pd.Series`: aligned on the AC types, and the index of `a` is kept. -/
def energyIadd (a b : EnergySeries) : EnergySeries :=
  a.map (fun p => (p.1, energyPlus p.2 ((b.lookup p.1).getD none)))

/-- `MeterGroup.total_energy` without `full_results`, metergroup.py:863-873, given the energies of its meters; `none` is the
`None` returned for a group without meters. -/
def groupEnergy : List EnergySeries → Option EnergySeries
  | [] => none
  | s :: ss => some (ss.foldl energyIadd s)

/-- `series.sum()`: NaNs are skipped. -/
def energySum (s : EnergySeries) : Rat := (s.filterMap Prod.snd).sum

/-- `x / y` of two floats. -/
def divNan : Option Rat → Option Rat → FVal Rat
  | some x, some y => fdiv x y
  | _, _ => .nan

/-- `series[k]`. -/
def energyAt (s : EnergySeries) (k : String) : Except Err (Option Rat) :=
  match s.lookup k with
  | none => .error .keyError
  | some v => .ok v

/-- `x + y` of two floats. -/
def FVal.add : FVal Rat → FVal Rat → FVal Rat
  | .num x, .num y => .num (x + y)
  | .nan, _ => .nan
  | _, .nan => .nan
  | .posInf, .negInf => .nan
  | .negInf, .posInf => .nan
  | .posInf, _ => .posInf
  | _, .posInf => .posInf
  | .negInf, _ => .negInf
  | _, .negInf => .negInf

/-- `x / n` for a positive count. -/
def FVal.over (n : Nat) : FVal Rat → FVal Rat
  | .num x => .num (x / n)
  | v => v

/-- `series.mean()`: NaNs are left out, the mean of nothing is NaN. -/
def fmean (l : List (FVal Rat)) : FVal Rat :=
  match l.filter (fun v => decide (v ≠ .nan)) with
  | [] => .nan
  | l' => (l'.foldl FVal.add (.num 0)).over l'.length

/-- The AC types used for the two meters when they share at most one, electric.py:300-308. -/
def acPair (self other : EnergySeries) : List String → Except Err (String × String)
  | k :: _ => .ok (k, k)
  | [] =>
    match selectBestAcType (self.map Prod.fst) none with
    | .error e => .error e
    | .ok (a, _) =>
      match selectBestAcType (other.map Prod.fst) none with
      | .error e => .error e
      | .ok (b, _) => .ok (a, b)

/-- `total_energy[ac_type] / other_total_energy[other_ac_type]`, electric.py:309. -/
def energyRatio (self other : EnergySeries) (a b : String) : Except Err (FVal Rat) :=
  match energyAt self a with
  | .error e => .error e
  | .ok x =>
    match energyAt other b with
    | .error e => .error e
    | .ok y => .ok (divNan x y)

/-- `shared_ac_types`, electric.py:293-295. -/
def sharedTypes (self other : EnergySeries) : List String :=
  (other.map Prod.fst).filter (fun k => decide (k ∈ self.map Prod.fst))

/-- `Electric.proportion_of_energy`, electric.py:276-309, given `total_energy` and `other_total_energy` over the same
sections. The order of `list(set(...))` does not matter for a mean. -/
def proportionOfEnergy (self other : EnergySeries) : Except Err (FVal Rat) :=
  if energySum other = 0 then .ok .nan
  else if self = [] then .ok (.num 0)
  else
    if 1 < (sharedTypes self other).length then
      .ok (fmean ((sharedTypes self other).map
        (fun k => divNan ((self.lookup k).getD none) ((other.lookup k).getD none))))
    else
      match acPair self other (sharedTypes self other) with
      | .error e => .error e
      | .ok (a, b) => energyRatio self other a b

/-- The loop of `proportion_of_energy_submetered`, metergroup.py:1086-1094: `proportion` and `all_nan`. -/
def submeteredLoop (prop : WNode → Except Err (FVal Rat)) : FVal Rat → Bool → List WNode → Except Err (FVal Rat × Bool)
  | acc, allNan, [] => .ok (acc, allNan)
  | acc, allNan, n :: ns =>
    match prop n with
    | .error e => .error e
    | .ok .nan => submeteredLoop prop acc allNan ns
    | .ok v => submeteredLoop prop (acc.add v) false ns

/-- `m.proportion_of_energy(mains)`, metergroup.py:1089: `None.good_sections` raises `AttributeError`. -/
def proportionOfMains (self : EnergySeries) : Option EnergySeries → Except Err (FVal Rat)
  | none => .error .attributeError
  | some other => proportionOfEnergy self other

/-- `MeterGroup.proportion_of_energy_submetered`, metergroup.py:1074-1098. `energy` and `mainsEnergy` are the energies over
the good sections of the mains. -/
def proportionSubmetered (glob : List Elec) (W : MeterId → Wire) (energy : WNode → EnergySeries)
    (mainsEnergy : Meter → EnergySeries) (ms : List Meter) : Except Err (FVal Rat) :=
  match mains ms with
  | .error e => .error e
  | .ok mn =>
    match directlyDownstream glob W ms with
    | .error e => .error e
    | .ok l =>
      match submeteredLoop (fun n => proportionOfMains (energy n) (mn.map mainsEnergy)) (.num 0) true l with
      | .error e => .error e
      | .ok (v, allNan) => .ok (if allNan then .nan else v)

/-- `a / b` for two `pd.Series`: the AC types of both, NaN where one is missing. -/
def seriesDiv (a b : EnergySeries) : List (String × FVal Rat) :=
  (a.map Prod.fst ++ (b.map Prod.fst).filter (fun k => decide (k ∉ a.map Prod.fst))).map
    (fun k => (k, divNan ((a.lookup k).getD none) ((b.lookup k).getD none)))

/-- `Electric.proportion_of_upstream`, electric.py:207-219, given the energies over the good sections of the upstream
meter. -/
def proportionOfUpstream (self upstream : EnergySeries) : Except Err (FVal Rat) :=
  let q := seriesDiv self upstream
  match selectBestAcType (q.map Prod.fst) none with
  | .error e => .error e
  | .ok (k, _) =>
    match q.lookup k with
    | none => .error .keyError
    | some v => .ok v

/-- `Electric.average_energy_per_period`, electric.py:253-265. `td` is the uptime or the duration of the time frame and `period`
the length of a period, in nanoseconds; `none` is the single NaN returned when `td` is zero. -/
def averageEnergy (sectionsGiven : Bool) (td period : Int) (energy : EnergySeries) :
    Except Err (Option (List (String × FVal Rat))) :=
  if sectionsGiven then .error .runtimeError
  else if td = 0 then .ok none
  else
    let periods := ((td : Rat) / 1000000000) / ((period : Rat) / 1000000000)
    .ok (some (energy.map (fun p => (p.1, divNan p.2 (some periods)))))

end Nilmtk
