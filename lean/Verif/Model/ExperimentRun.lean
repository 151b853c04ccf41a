import Verif.Model.Experiment
import Verif.Model.Mean
import Verif.Model.HartDisagg
import Verif.Model.FHMMTrain
/-!
Model of the whole experiment, `nilmtk/api.py`: `store_classifier_instances`, `experiment` and `train_chunk_wise`, with the methods
as objects that training changes, and of the way `partial_fit` of the methods in `nilmtk/disaggregate` takes the third argument.

`disaggregate_chunk` is a function of the state that training has left. Printing is not modelled.
-/
namespace Nilmtk

/-- A method object. `loadModelPath`, `chunkWise` and `nEpochs` are the attributes that `experiment` looks at, `none` for an attribute
that does not exist. `fit` is `partial_fit`: the attribute `n_epochs`, the state, `train_mains`, `train_appliances`, and the third
positional argument if there is one. -/
structure Clf (σ : Type) where
  loadModelPath : Option (Option String)
  chunkWise : Option Bool
  nEpochs : Option Int
  state : σ
  fit : Option Int → σ → List RowFrame → List (String × List RowFrame) → Option Nat → Except Err σ
  predict : σ → Method

/-- The rounds for one building, api.py:123-149. -/
def fitRounds {ρ σ : Type} (cfg : ExpCfg ρ) (epoch : Nat) : List (RowFrame × List RowFrame) → Clf σ → Except Err (Clf σ)
  | [], c => .ok c
  | (m, apps) :: rest, c =>
    match prepare cfg m apps with
    | .error e => .error e
    | .ok (m', as) =>
      match c.fit c.nEpochs c.state [m'] (cfg.appliances.zip (as.map (fun f => [f]))) (some epoch) with
      | .error e => .error e
      | .ok s => fitRounds cfg epoch rest { c with state := s }

/-- `API.train_chunk_wise`, api.py:105-152. -/
def trainChunkWise {ρ σ : Type} (cfg : ExpCfg ρ) (epoch : Nat) : List ChunkedBuilding → Clf σ → Except Err (Clf σ)
  | [], c => .ok c
  | b :: bs, c =>
    match mapE b.load cfg.appliances with
    | .error e => .error e
    | .ok apps =>
      match fitRounds cfg epoch (chunkRounds b.mains apps) c with
      | .error e => .error e
      | .ok c' => trainChunkWise cfg epoch bs c'

/-- The loop over the epochs, api.py:81-82. -/
def epochLoop {ρ σ : Type} (cfg : ExpCfg ρ) (bs : List ChunkedBuilding) : List Nat → Clf σ → Except Err (Clf σ)
  | [], c => .ok c
  | i :: is, c =>
    match trainChunkWise cfg i bs c with
    | .error e => .error e
    | .ok c' => epochLoop cfg bs is c'

/-- The data of the experiment, as it is loaded whole (api.py:212-219, 254-258) and in chunks (api.py:119-123, 163-167). -/
structure ExpData where
  whole : List ExpBuilding
  chunked : List ChunkedBuilding

/-- `train_jointly` with its call of `partial_fit`, api.py:199-240. -/
def fitJointly {ρ σ : Type} (cfg : ExpCfg ρ) (bs : List ExpBuilding) (c : Clf σ) : Except Err (Clf σ) :=
  match trainJointly cfg bs with
  | .error e => .error e
  | .ok (ms, subs) =>
    match c.fit c.nEpochs c.state ms subs none with
    | .error e => .error e
    | .ok s => .ok { c with state := s }

/-- `if hasattr(clf, 'load_model_path'): if clf.load_model_path`, api.py:63-64. -/
def pretrained {σ : Type} (c : Clf σ) : Bool :=
  match c.loadModelPath with
  | some (some p) => p != ""
  | _ => false

/-- `if self.chunk_size`, api.py:69, 95. -/
def chunking (chunkSize : Option Nat) : Bool :=
  match chunkSize with
  | some n => n != 0
  | none => false

/-- The body of the loop over the methods, api.py:57-90. -/
def trainOne {ρ σ : Type} (cfg : ExpCfg ρ) (chunkSize : Option Nat) (d : ExpData) (c : Clf σ) : Except Err (Clf σ) :=
  if pretrained c then .ok c
  else if chunking chunkSize then
    match c.chunkWise with
    | none => .error .attributeError
    | some true =>
      match c.nEpochs with
      | some n => epochLoop cfg d.chunked (List.range n.toNat) { c with nEpochs := some 1 }
      | none => epochLoop cfg d.chunked (List.range 1) c
    | some false => fitJointly cfg d.whole c
  else fitJointly cfg d.whole c

/-- The objects that the methods refer to: two names may refer to the same object. -/
abbrev ClfHeap (σ : Type) := Nat → Clf σ

/-- The loop over the methods, api.py:57-90. -/
def trainMethods {ρ σ : Type} (cfg : ExpCfg ρ) (chunkSize : Option Nat) (d : ExpData) :
    List (String × Nat) → ClfHeap σ → Except Err (ClfHeap σ)
  | [], h => .ok h
  | (_, i) :: rest, h =>
    match trainOne cfg chunkSize d (h i) with
    | .error e => .error e
    | .ok c => trainMethods cfg chunkSize d rest (Function.update h i c)

/-- The methods as testing uses them. -/
def trainedMethods {σ : Type} (methods : List (String × Nat)) (h : ClfHeap σ) : List (String × Method) :=
  methods.map (fun e => (e.1, (h e.2).predict (h e.2).state))

/-- `API.__init__` from the parameters on, and `API.experiment`, api.py:22-31, 49-103, 299-312: `self.classifiers` are the items of
`self.methods`. The methods of `cfg` are not used. -/
def experiment {ρ σ : Type} (cfg : ExpCfg ρ) (chunkSize : Option Nat) (methods : List (String × Nat)) (train test : ExpData)
    (h : ClfHeap σ) : Except Err (ClfHeap σ × ExpState ρ) :=
  match trainMethods cfg chunkSize train methods h with
  | .error e => .error e
  | .ok h' =>
    let cfg' := { cfg with methods := trainedMethods methods h' }
    match (if chunking chunkSize then testChunkWise cfg' test.chunked ⟨[], [], []⟩
      else testJointly cfg' test.whole ⟨[], [], []⟩) with
    | .error e => .error e
    | .ok st => .ok (h', st)

/-! ### The third argument of `partial_fit` -/

/-- `Mean.partial_fit(self, train_main, train_appliances, **load_kwargs)`, mean.py:18: no third positional argument. -/
def meanPartialFit (s : MeanModel) (subs : List (String × List RowFrame)) (third : Option Nat) : Except Err MeanModel :=
  match third with
  | some _ => .error .typeError
  | none => meanFit s (subs.map (fun e => (e.1, e.2.map (fun f => (f.map Prod.snd).flatten))))

/-- A `Mean` object, mean.py:9-16. -/
def meanClf (chunkWise : Bool) (predict : MeanModel → Method) : Clf MeanModel :=
  { loadModelPath := some none, chunkWise := some chunkWise, nEpochs := none, state := [],
    fit := fun _ s _ subs third => meanPartialFit s subs third, predict := predict }

/-- `FHMMExact.partial_fit(self, train_main, train_appliances, **load_kwargs)`, fhmm_exact.py:183: no third positional argument. -/
def fhmmFitThird {γ : Type} (lib : HmmLib γ) (numOfStates : Int) (s : Fhmm γ) (mains : List RowFrame)
    (subs : List (String × List RowFrame)) (third : Option Nat) : Except Err (Fhmm γ) :=
  match third with
  | some _ => .error .typeError
  | none => fhmmPartialFit lib numOfStates s (mains.map (fun f => (f.map Prod.snd).flatten))
      (subs.map (fun e => (e.1, e.2.map (fun f => (f.map Prod.snd).flatten))))

/-- `Hart85.partial_fit(self, train_main, train_appliances, buffer_size=20, ...)`, hart_85.py:211-218: the third positional argument is
the size of the buffer. Frames have one column without gaps. -/
def hartFitThird (threshold noise minTol percentTol large : Rat) (meanShift : List Rat → Except Err (List Rat)) (mains : List RowFrame)
    (subs : List (String × List RowFrame)) (third : Option Nat) : Except Err HartModel :=
  hartFit ⟨third.getD 20, minTol, percentTol, large⟩ threshold noise meanShift
    (mains.map (fun f => f.map (fun r => (r.1, (r.2.headD none).getD 0))))
    (subs.map (fun e => (e.1, e.2.map (fun f => f.map (fun r => (r.2.headD none).getD 0)))))

end Nilmtk
