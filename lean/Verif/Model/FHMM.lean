import Verif.Model.CO
/-!
Model of the functions of `nilmtk/disaggregate/fhmm_exact.py` that combine, sort and decode hidden Markov models.

Numbers are exact; the HMM library (`fit`, `predict`) is not modelled. Matrices are lists of rows.
-/
namespace Nilmtk

/-- `np.kron` of two vectors. -/
def kronVec (a b : List Rat) : List Rat := a.flatMap (fun x => b.map (fun y => x * y))

/-- `np.kron` of two matrices. -/
def kronMat (a b : List (List Rat)) : List (List Rat) := a.flatMap (fun ra => b.map (fun rb => kronVec ra rb))

/-- `compute_pi_fhmm`, fhmm_exact.py:95-108. -/
def computePi (pis : List (List Rat)) : Except Err (List Rat) :=
  match pis with
  | [] => .error .indexError
  | p :: ps => .ok (ps.foldl kronVec p)

/-- `compute_A_fhmm`, fhmm_exact.py:65-78. -/
def computeA (as : List (List (List Rat))) : Except Err (List (List Rat)) :=
  match as with
  | [] => .error .indexError
  | a :: as => .ok (as.foldl kronMat a)

/-- `itertools.product(*lists)`: the last list varies fastest. -/
def itProduct : List (List Rat) → List (List Rat)
  | [] => [[]]
  | l :: ls => l.flatMap (fun x => (itProduct ls).map (fun r => x :: r))

/-- The means of `compute_means_fhmm`, fhmm_exact.py:81-92. -/
def computeMeans (means : List (List Rat)) : List Rat := (itProduct means).map List.sum

/-- The loop over the appliances in `decode_hmm`, fhmm_exact.py:158-166: `factor` so far, sizes `len(centroids[..])`. The
division is a true division and the remainder that of real numbers; storing into an integer array truncates. -/
def decodeLoop (s : Nat) : Nat → List Nat → List Nat
  | _, [] => []
  | factor, n :: ns =>
    let factor' := factor / n
    let temp : Rat := (s : Rat) / (factor' : Rat)
    let state := ⌊temp - (n : Rat) * ((⌊temp / (n : Rat)⌋ : Int) : Rat)⌋.toNat
    state :: decodeLoop s factor' ns

/-- The states of all appliances for one combined state, `decode_hmm`, fhmm_exact.py:141-167. -/
def decodeState (sizes : List Nat) (s : Nat) : List Nat := decodeLoop s (sizes.foldl (· * ·) 1) sizes

/-- `hmm_power`, fhmm_exact.py:165-166: the centroid of each decoded state. -/
def decodePower (centroids : List (List Int)) (s : Nat) : List Int :=
  List.zipWith (fun (c : List Int) (k : Nat) => c.getD k 0) centroids (decodeState (centroids.map List.length) s)

/-- The centroids used by `disaggregate_chunk`, fhmm_exact.py:291-295: rounded means, sorted. -/
def roundedCentroids (means : List Rat) : List Int := (means.map roundEven).insertionSort (· ≤ ·)

/-! ### Sorting -/

/-- `np.sort`. -/
def npSort (l : List Rat) : List Rat := l.insertionSort (· ≤ ·)

/-- `return_sorting_mapping`, fhmm_exact.py:130-138: for each sorted mean the first position holding it. -/
def sortingMapping (means : List Rat) : List Nat := (npSort means).map (fun v => means.findIdx (fun m => decide (v = m)))

/-- `sort_startprob` and `sort_covars`, fhmm_exact.py:17-31: `startprob[mapping[i]]`; an index beyond the mapping is a
`KeyError`, one beyond the vector an `IndexError`. -/
def sortVec {α : Type} (mapping : List Nat) (v : List α) : Except Err (List α) :=
  (List.range v.length).mapM (fun i : Nat =>
    match mapping[i]? with
    | none => .error .keyError
    | some k =>
      match v[k]? with
      | none => .error .indexError
      | some x => .ok x)

/-- `A[i, j]` of a matrix. -/
def matGet (a : List (List Rat)) (i j : Nat) : Option Rat := a[i]?.bind (fun r => r[j]?)

/-- `sort_transition_matrix`, fhmm_exact.py:34-49. -/
def sortMat (mapping : List Nat) (a : List (List Rat)) : Except Err (List (List Rat)) :=
  (List.range a.length).mapM (fun i : Nat =>
    (List.range a.length).mapM (fun j : Nat =>
      match mapping[i]?, mapping[j]? with
      | some k, some l =>
        match matGet a k l with
        | none => .error .indexError
        | some x => .ok x
      | _, _ => .error .keyError))

/-- A learnt model: start probabilities, means, covariances (of any type), transition matrix. -/
structure Hmm (γ : Type) where
  startprob : List Rat
  means : List Rat
  covars : List γ
  transmat : List (List Rat)
  deriving DecidableEq, Repr

/-- `sort_learnt_parameters`, fhmm_exact.py:52-62. -/
def sortLearnt {γ : Type} (h : Hmm γ) : Except Err (Hmm γ) :=
  match sortVec (sortingMapping h.means) h.startprob with
  | .error e => .error e
  | .ok s =>
    match sortVec (sortingMapping h.means) h.covars with
    | .error e => .error e
    | .ok c =>
      match sortMat (sortingMapping h.means) h.transmat with
      | .error e => .error e
      | .ok a => .ok ⟨s, npSort h.means, c, a⟩

end Nilmtk
