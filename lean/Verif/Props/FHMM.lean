import Verif.Model.FHMM
import Verif.Props.CO
import Mathlib.Algebra.BigOperators.Group.List.Basic
import Mathlib.Algebra.BigOperators.Ring.List
import Mathlib.Tactic.Positivity
/-!
C44, C45, C46: combined hidden Markov models.
-/
namespace Nilmtk

/-! ### Decoding -/

/-- A state of every appliance. -/
def IsTuple (sizes ds : List Nat) : Prop := List.Forall₂ (fun n d => d < n) sizes ds

/-- The number of a tuple of states: the last appliance varies fastest. -/
def encodeTuple : List Nat → List Nat → Nat
  | _ :: ns, d :: ds => d * ns.prod + encodeTuple ns ds
  | _, _ => 0

theorem foldl_mul (l : List Nat) (a : Nat) : l.foldl (· * ·) a = a * l.prod := by
  induction l generalizing a with
  | nil => simp
  | cons b l ih => rw [List.foldl_cons, ih, List.prod_cons, Nat.mul_assoc]

theorem prod_pos (l : List Nat) (h : ∀ n ∈ l, 0 < n) : 0 < l.prod := by
  induction l with
  | nil => simp
  | cons a l ih =>
    rw [List.prod_cons]
    exact Nat.mul_pos (h a List.mem_cons_self) (ih (fun n hn => h n (List.mem_cons_of_mem _ hn)))

theorem true_division (s f n : Nat) :
    ⌊(s : Rat) / (f : Rat) - (n : Rat) * ((⌊(s : Rat) / (f : Rat) / (n : Rat)⌋ : Int) : Rat)⌋.toNat = s / f % n := by
  have h1 : ⌊(s : Rat) / (f : Rat)⌋ = ((s / f : Nat) : Int) := by
    have := Rat.floor_intCast_div_natCast (s : Int) f
    push_cast at this
    rw [this]; norm_cast
  have h2 : ⌊(s : Rat) / (f : Rat) / (n : Rat)⌋ = ((s / f / n : Nat) : Int) := by
    rw [div_div]
    have := Rat.floor_intCast_div_natCast (s : Int) (f * n)
    push_cast at this
    rw [this, Nat.div_div_eq_div_mul]; norm_cast
  rw [h2]
  have h3 : (n : Rat) * (((s / f / n : Nat) : Int) : Rat) = (((n * (s / f / n) : Nat) : Int) : Rat) := by
    push_cast; ring
  rw [h3, Int.floor_sub_intCast, h1]
  have h4 := Nat.div_add_mod (s / f) n
  generalize hx : n * (s / f / n) = x at *
  omega

theorem decodeLoop_cons (s n : Nat) (ns : List Nat) (factor : Nat) :
    decodeLoop s factor (n :: ns) = (s / (factor / n) % n) :: decodeLoop s (factor / n) ns := by
  rw [decodeLoop]
  simp only [true_division]

theorem decodeLoop_mod (ns : List Nat) (hns : ∀ n ∈ ns, 0 < n) (s : Nat) :
    decodeLoop s ns.prod ns = decodeLoop (s % ns.prod) ns.prod ns := by
  induction ns generalizing s with
  | nil => rfl
  | cons n ns ih =>
    have hn := hns n List.mem_cons_self
    have hns' : ∀ n ∈ ns, 0 < n := fun m hm => hns m (List.mem_cons_of_mem _ hm)
    have hP := prod_pos ns hns'
    rw [decodeLoop_cons, decodeLoop_cons, List.prod_cons, Nat.mul_div_cancel_left _ hn]
    congr 1
    · rw [Nat.mul_comm n, Nat.mod_mul_right_div_self, Nat.mod_mod]
    · rw [ih hns' s, ih hns' (s % (n * ns.prod)), Nat.mod_mul_left_mod]

theorem decodeState_cons (n : Nat) (ns : List Nat) (hn : 0 < n) (hns : ∀ m ∈ ns, 0 < m) (s : Nat) :
    decodeState (n :: ns) s = (s / ns.prod % n) :: decodeState ns (s % ns.prod) := by
  unfold decodeState
  rw [foldl_mul, foldl_mul, Nat.one_mul, Nat.one_mul, decodeLoop_cons, List.prod_cons, Nat.mul_div_cancel_left _ hn,
    decodeLoop_mod ns hns s]

/-- C44. Decoding a combined state gives a valid state for every appliance, and the combined state is the number of
that tuple: decoding is injective. -/
theorem C44_decode (sizes : List Nat) (h : ∀ n ∈ sizes, 0 < n) (s : Nat) (hs : s < sizes.prod) :
    IsTuple sizes (decodeState sizes s) ∧ encodeTuple sizes (decodeState sizes s) = s := by
  induction sizes generalizing s with
  | nil =>
    rw [List.prod_nil] at hs
    exact ⟨.nil, by simp [encodeTuple]; omega⟩
  | cons n ns ih =>
    have hn := h n List.mem_cons_self
    have hns : ∀ m ∈ ns, 0 < m := fun m hm => h m (List.mem_cons_of_mem _ hm)
    have hP := prod_pos ns hns
    rw [List.prod_cons] at hs
    rw [decodeState_cons n ns hn hns]
    obtain ⟨h1, h2⟩ := ih hns (s % ns.prod) (Nat.mod_lt _ hP)
    refine ⟨.cons (Nat.mod_lt _ hn) h1, ?_⟩
    have hlt : s / ns.prod < n := Nat.div_lt_of_lt_mul (by rw [Nat.mul_comm]; exact hs)
    rw [encodeTuple, h2, Nat.mod_eq_of_lt hlt]
    exact Nat.div_add_mod' s ns.prod

/-- C44. Decoding is surjective: every tuple of states is the decoding of its number, which is a combined state. -/
theorem C44_encode (sizes : List Nat) (h : ∀ n ∈ sizes, 0 < n) (ds : List Nat) (hd : IsTuple sizes ds) :
    encodeTuple sizes ds < sizes.prod ∧ decodeState sizes (encodeTuple sizes ds) = ds := by
  induction hd with
  | nil => exact ⟨by simp [encodeTuple], rfl⟩
  | @cons n d ns ds hlt hd ih =>
    have hn := h n List.mem_cons_self
    have hns : ∀ m ∈ ns, 0 < m := fun m hm => h m (List.mem_cons_of_mem _ hm)
    obtain ⟨h1, h2⟩ := ih hns
    have hP := prod_pos ns hns
    have hdiv : (d * ns.prod + encodeTuple ns ds) / ns.prod = d := by
      rw [Nat.add_comm, Nat.add_mul_div_right _ _ hP, Nat.div_eq_of_lt h1, Nat.zero_add]
    have hmod : (d * ns.prod + encodeTuple ns ds) % ns.prod = encodeTuple ns ds := by
      rw [Nat.add_comm, Nat.add_mul_mod_self_right, Nat.mod_eq_of_lt h1]
    constructor
    · rw [encodeTuple, List.prod_cons]
      have : (d + 1) * ns.prod ≤ n * ns.prod := Nat.mul_le_mul_right _ hlt
      rw [Nat.add_mul, Nat.one_mul] at this
      omega
    · rw [decodeState_cons n ns hn hns, encodeTuple, hdiv, hmod, h2, Nat.mod_eq_of_lt hlt]

/-! ### Products -/

theorem getElem?_flatMap_map {α β γ : Type} (a : List α) (b : List β) (f : α → β → γ) (hb : 0 < b.length) (i : Nat) :
    (a.flatMap (fun x => b.map (f x)))[i]? =
      a[i / b.length]?.bind (fun x => b[i % b.length]?.map (fun y => f x y)) := by
  induction a generalizing i with
  | nil => simp
  | cons x a ih =>
    rw [List.flatMap_cons]
    by_cases hi : i < b.length
    · rw [List.getElem?_append_left (by simpa using hi), List.getElem?_map, Nat.div_eq_of_lt hi, Nat.mod_eq_of_lt hi]
      rfl
    · have hi' : b.length ≤ i := by omega
      rw [List.getElem?_append_right (by simpa using hi'), List.length_map, ih]
      have h1 : i / b.length = (i - b.length) / b.length + 1 := by
        conv_lhs => rw [← Nat.sub_add_cancel hi']
        rw [Nat.add_div_right _ hb]
      have h2 : i % b.length = (i - b.length) % b.length := by
        conv_lhs => rw [← Nat.sub_add_cancel hi']
        rw [Nat.add_mod_right]
      rw [h1, h2, List.getElem?_cons_succ]

theorem length_flatMap_map {α β γ : Type} (a : List α) (b : List β) (f : α → β → γ) :
    (a.flatMap (fun x => b.map (f x))).length = a.length * b.length := by
  induction a with
  | nil => simp
  | cons x a ih => rw [List.flatMap_cons, List.length_append, ih, List.length_map, List.length_cons, Nat.add_mul]; omega

/-- Right-nested product of vectors. -/
def tensor : List (List Rat) → List Rat
  | [] => [1]
  | a :: as => kronVec a (tensor as)

/-- Right-nested product of matrices. -/
def tensorMat : List (List (List Rat)) → List (List Rat)
  | [] => [[1]]
  | a :: as => kronMat a (tensorMat as)

theorem kronVec_assoc (a b c : List Rat) : kronVec (kronVec a b) c = kronVec a (kronVec b c) := by
  unfold kronVec
  simp only [List.flatMap_assoc, List.flatMap_map, List.map_flatMap, List.map_map]
  congr 1
  funext x
  congr 1
  funext y
  apply List.map_congr_left
  intro z _
  simp only [Function.comp]
  ring

theorem kronVec_one (a : List Rat) : kronVec a [1] = a := by
  unfold kronVec
  simp

theorem foldl_kronVec (p : List Rat) (ps : List (List Rat)) : ps.foldl kronVec p = kronVec p (tensor ps) := by
  induction ps generalizing p with
  | nil => rw [tensor, kronVec_one]; rfl
  | cons q ps ih => rw [List.foldl_cons, ih, tensor, kronVec_assoc]

theorem kronMat_assoc (a b c : List (List Rat)) : kronMat (kronMat a b) c = kronMat a (kronMat b c) := by
  unfold kronMat
  simp only [List.flatMap_assoc, List.flatMap_map, List.map_flatMap, List.map_map]
  congr 1
  funext x
  congr 1
  funext y
  apply List.map_congr_left
  intro z _
  simp only [Function.comp]
  exact kronVec_assoc x y z

theorem kronMat_one (a : List (List Rat)) : kronMat a [[1]] = a := by
  unfold kronMat
  simp [kronVec_one]

theorem foldl_kronMat (p : List (List Rat)) (ps : List (List (List Rat))) :
    ps.foldl kronMat p = kronMat p (tensorMat ps) := by
  induction ps generalizing p with
  | nil => rw [tensorMat, kronMat_one]; rfl
  | cons q ps ih => rw [List.foldl_cons, ih, tensorMat, kronMat_assoc]

theorem computePi_eq (pis : List (List Rat)) (h : pis ≠ []) : computePi pis = .ok (tensor pis) := by
  cases pis with
  | nil => exact absurd rfl h
  | cons p ps => rw [computePi, foldl_kronVec]; rfl

theorem computeA_eq (as : List (List (List Rat))) (h : as ≠ []) : computeA as = .ok (tensorMat as) := by
  cases as with
  | nil => exact absurd rfl h
  | cons p ps => rw [computeA, foldl_kronMat]; rfl

theorem tensor_length (l : List (List Rat)) : (tensor l).length = (l.map List.length).prod := by
  induction l with
  | nil => rfl
  | cons a l ih => rw [tensor, kronVec, length_flatMap_map, ih, List.map_cons, List.prod_cons]

theorem tensorMat_length (l : List (List (List Rat))) : (tensorMat l).length = (l.map List.length).prod := by
  induction l with
  | nil => rfl
  | cons a l ih => rw [tensorMat, kronMat, length_flatMap_map, ih, List.map_cons, List.prod_cons]

theorem itProduct_length (l : List (List Rat)) : (itProduct l).length = (l.map List.length).prod := by
  induction l with
  | nil => rfl
  | cons a l ih => rw [itProduct, length_flatMap_map, ih, List.map_cons, List.prod_cons]

/-- The entry of each vector at the given positions. -/
def pick {α : Type} (ls : List (List α)) (ds : List Nat) (d : α) : List α :=
  List.zipWith (fun (l : List α) (k : Nat) => l.getD k d) ls ds

theorem tensor_get (l : List (List Rat)) (hl : ∀ a ∈ l, a ≠ []) (s : Nat) (hs : s < (l.map List.length).prod) :
    (tensor l)[s]? = some (pick l (decodeState (l.map List.length) s) 0).prod := by
  induction l generalizing s with
  | nil =>
    have : s = 0 := by simpa using hs
    subst this; rfl
  | cons a l ih =>
    have hl' : ∀ a ∈ l, a ≠ [] := fun x hx => hl x (List.mem_cons_of_mem _ hx)
    have hpos : ∀ n ∈ l.map List.length, 0 < n := by
      intro n hn
      obtain ⟨x, hx, rfl⟩ := List.mem_map.1 hn
      exact List.length_pos_of_ne_nil (hl' x hx)
    have ha : 0 < a.length := List.length_pos_of_ne_nil (hl a List.mem_cons_self)
    have hP := prod_pos _ hpos
    rw [List.map_cons, List.prod_cons] at hs
    have hlt : s / (l.map List.length).prod < a.length := Nat.div_lt_of_lt_mul (by rw [Nat.mul_comm]; exact hs)
    rw [tensor, kronVec, getElem?_flatMap_map _ _ _ (by rw [tensor_length]; exact hP), tensor_length,
      ih hl' _ (Nat.mod_lt _ hP), List.getElem?_eq_getElem hlt, List.map_cons, decodeState_cons _ _ ha hpos,
      Nat.mod_eq_of_lt hlt]
    simp only [Option.bind_some, Option.map_some, pick, List.zipWith_cons_cons, List.prod_cons]
    rw [List.getD_eq_getElem _ _ hlt]

theorem itProduct_get (l : List (List Rat)) (hl : ∀ a ∈ l, a ≠ []) (s : Nat) (hs : s < (l.map List.length).prod) :
    (itProduct l)[s]? = some (pick l (decodeState (l.map List.length) s) 0) := by
  induction l generalizing s with
  | nil =>
    have : s = 0 := by simpa using hs
    subst this; rfl
  | cons a l ih =>
    have hl' : ∀ a ∈ l, a ≠ [] := fun x hx => hl x (List.mem_cons_of_mem _ hx)
    have hpos : ∀ n ∈ l.map List.length, 0 < n := by
      intro n hn
      obtain ⟨x, hx, rfl⟩ := List.mem_map.1 hn
      exact List.length_pos_of_ne_nil (hl' x hx)
    have ha : 0 < a.length := List.length_pos_of_ne_nil (hl a List.mem_cons_self)
    have hP := prod_pos _ hpos
    rw [List.map_cons, List.prod_cons] at hs
    have hlt : s / (l.map List.length).prod < a.length := Nat.div_lt_of_lt_mul (by rw [Nat.mul_comm]; exact hs)
    rw [itProduct, getElem?_flatMap_map _ _ _ (by rw [itProduct_length]; exact hP), itProduct_length,
      ih hl' _ (Nat.mod_lt _ hP), List.getElem?_eq_getElem hlt, List.map_cons, decodeState_cons _ _ ha hpos,
      Nat.mod_eq_of_lt hlt]
    simp only [Option.bind_some, Option.map_some, pick, List.zipWith_cons_cons]
    rw [List.getD_eq_getElem _ _ hlt]

theorem tensorMat_get (l : List (List (List Rat))) (hl : ∀ a ∈ l, a ≠ []) (s : Nat) (hs : s < (l.map List.length).prod) :
    (tensorMat l)[s]? = some (tensor (pick l (decodeState (l.map List.length) s) [])) := by
  induction l generalizing s with
  | nil =>
    have : s = 0 := by simpa using hs
    subst this; rfl
  | cons a l ih =>
    have hl' : ∀ a ∈ l, a ≠ [] := fun x hx => hl x (List.mem_cons_of_mem _ hx)
    have hpos : ∀ n ∈ l.map List.length, 0 < n := by
      intro n hn
      obtain ⟨x, hx, rfl⟩ := List.mem_map.1 hn
      exact List.length_pos_of_ne_nil (hl' x hx)
    have ha : 0 < a.length := List.length_pos_of_ne_nil (hl a List.mem_cons_self)
    have hP := prod_pos _ hpos
    rw [List.map_cons, List.prod_cons] at hs
    have hlt : s / (l.map List.length).prod < a.length := Nat.div_lt_of_lt_mul (by rw [Nat.mul_comm]; exact hs)
    rw [tensorMat, kronMat, getElem?_flatMap_map _ _ _ (by rw [tensorMat_length]; exact hP), tensorMat_length,
      ih hl' _ (Nat.mod_lt _ hP), List.getElem?_eq_getElem hlt, List.map_cons, decodeState_cons _ _ ha hpos,
      Nat.mod_eq_of_lt hlt]
    simp only [Option.bind_some, Option.map_some, pick, List.zipWith_cons_cons, tensor]
    rw [List.getD_eq_getElem _ _ hlt]

/-- C44. The combined start probability of a combined state is the product of the start probabilities of the decoded
appliance states; there is one entry per combined state. -/
theorem C44_start (pis : List (List Rat)) (hne : pis ≠ []) (hp : ∀ p ∈ pis, p ≠ []) :
    ∃ r, computePi pis = .ok r ∧ r.length = (pis.map List.length).prod ∧
      ∀ s, s < (pis.map List.length).prod →
        r[s]? = some (pick pis (decodeState (pis.map List.length) s) 0).prod :=
  ⟨_, computePi_eq pis hne, tensor_length pis, fun s hs => tensor_get pis hp s hs⟩

/-- C44. The combined mean of a combined state is the sum of the means of the decoded appliance states. -/
theorem C44_means (means : List (List Rat)) (hp : ∀ p ∈ means, p ≠ []) :
    (computeMeans means).length = (means.map List.length).prod ∧
      ∀ s, s < (means.map List.length).prod →
        (computeMeans means)[s]? = some (pick means (decodeState (means.map List.length) s) 0).sum := by
  refine ⟨by rw [computeMeans, List.length_map, itProduct_length], ?_⟩
  intro s hs
  rw [computeMeans, List.getElem?_map, itProduct_get means hp s hs]
  rfl

/-- The entry of each matrix at the given positions. -/
def pickMat (as : List (List (List Rat))) (ds es : List Nat) : List Rat := pick (pick as ds []) es 0

theorem pick_row_lengths (as : List (List (List Rat))) (hsq : ∀ a ∈ as, ∀ r ∈ a, r.length = a.length) (ds : List Nat)
    (hd : IsTuple (as.map List.length) ds) :
    (pick as ds []).map List.length = as.map List.length := by
  unfold IsTuple at hd
  induction as generalizing ds with
  | nil => cases ds <;> rfl
  | cons a as ih =>
    rw [List.map_cons] at hd
    cases hd with
    | cons h1 h2 =>
      rename_i d ds
      show (a.getD d []).length :: (pick as ds []).map List.length = _
      rw [ih (fun x hx => hsq x (List.mem_cons_of_mem _ hx)) ds h2, List.getD_eq_getElem _ _ h1,
        hsq a List.mem_cons_self _ (List.getElem_mem _)]
      rfl

/-- C44. The combined transition probability between two combined states is the product of the transition
probabilities between the decoded appliance states. -/
theorem C44_transitions (as : List (List (List Rat))) (hne : as ≠ []) (hp : ∀ a ∈ as, a ≠ [])
    (hsq : ∀ a ∈ as, ∀ r ∈ a, r.length = a.length) :
    ∃ m, computeA as = .ok m ∧ m.length = (as.map List.length).prod ∧
      ∀ s t, s < (as.map List.length).prod → t < (as.map List.length).prod →
        matGet m s t = some (pickMat as (decodeState (as.map List.length) s) (decodeState (as.map List.length) t)).prod := by
  refine ⟨_, computeA_eq as hne, tensorMat_length as, ?_⟩
  intro s t hs ht
  have hpos : ∀ n ∈ as.map List.length, 0 < n := by
    intro n hn
    obtain ⟨x, hx, rfl⟩ := List.mem_map.1 hn
    exact List.length_pos_of_ne_nil (hp x hx)
  obtain ⟨h1, _⟩ := C44_decode _ hpos s hs
  have hlen := pick_row_lengths as hsq _ h1
  unfold matGet
  rw [tensorMat_get as hp s hs, Option.bind_some, tensor_get _ _ t (by rw [hlen]; exact ht), hlen]
  · rfl
  · intro r hr
    have : r.length ∈ (pick as (decodeState (as.map List.length) s) []).map List.length := List.mem_map.2 ⟨r, hr, rfl⟩
    rw [hlen] at this
    exact List.ne_nil_of_length_pos (hpos _ this)

theorem roundEven_mono (x y : Rat) (h : x ≤ y) : roundEven x ≤ roundEven y := by
  have hf : ⌊x⌋ ≤ ⌊y⌋ := Int.floor_le_floor h
  have hx1 : ∀ z : Rat, ⌊z⌋ ≤ roundEven z ∧ roundEven z ≤ ⌊z⌋ + 1 := by
    intro z
    unfold roundEven
    split
    · omega
    · split
      · omega
      · split <;> omega
  rcases lt_or_eq_of_le hf with hlt | heq
  · have := (hx1 x).2
    have := (hx1 y).1
    omega
  · unfold roundEven
    rw [← heq]
    generalize ⌊x⌋ = k
    by_cases a1 : x - k < 1 / 2
    · rw [if_pos a1]
      split
      · exact le_refl _
      · split
        · omega
        · split <;> omega
    · have b1 : ¬ (y - k < 1 / 2) := by
        intro hb; apply a1; linarith
      rw [if_neg a1, if_neg b1]
      by_cases a2 : 1 / 2 < x - k
      · have b2 : 1 / 2 < y - k := by linarith
        rw [if_pos a2, if_pos b2]
      · rw [if_neg a2]
        split <;> split <;> omega

/-- C44. For appliances whose means are in ascending order (as `sort_learnt_parameters` leaves them) the predicted power of
an appliance is the rounded mean of its decoded state. -/
theorem C44_power (means : List (List Rat)) (hs : ∀ m ∈ means, m.Pairwise (· ≤ ·)) (s : Nat)
    (hpos : ∀ m ∈ means, m ≠ []) (hlt : s < (means.map List.length).prod) :
    decodePower (means.map roundedCentroids) s =
      (pick means (decodeState (means.map List.length) s) 0).map roundEven := by
  have hsorted : ∀ m ∈ means, roundedCentroids m = m.map roundEven := by
    intro m hm
    unfold roundedCentroids
    apply List.Pairwise.insertionSort_eq
    exact (hs m hm).map _ (fun a b hab => roundEven_mono a b hab)
  have hlen : (means.map roundedCentroids).map List.length = means.map List.length := by
    rw [List.map_map]
    apply List.map_congr_left
    intro m _
    simp [roundedCentroids]
  have hpos' : ∀ n ∈ means.map List.length, 0 < n := by
    intro n hn
    obtain ⟨x, hx, rfl⟩ := List.mem_map.1 hn
    exact List.length_pos_of_ne_nil (hpos x hx)
  have ht := (C44_decode _ hpos' s hlt).1
  unfold decodePower
  rw [hlen]
  generalize decodeState (means.map List.length) s = ds at ht
  clear hlen hpos hpos' hlt hs
  unfold IsTuple at ht
  induction means generalizing ds with
  | nil => rfl
  | cons m means ih =>
    rw [List.map_cons] at ht
    cases ht with
    | cons h1 h2 =>
      rename_i d ds
      rw [List.map_cons, List.zipWith_cons_cons]
      unfold pick
      rw [List.zipWith_cons_cons, List.map_cons]
      congr 1
      · rw [hsorted m List.mem_cons_self, List.getD_eq_getElem _ _ (by simpa using h1), List.getElem_map,
          List.getD_eq_getElem _ _ h1]
      · exact ih (fun x hx => hsorted x (List.mem_cons_of_mem _ hx)) ds h2

/-- A fridge with two states and a washing machine with three. -/
example : decodeState [2, 3] 4 = [1, 1] ∧ encodeTuple [2, 3] [1, 1] = 4 ∧ IsTuple [2, 3] [1, 1] := by
  refine ⟨by decide +kernel, by decide, ?_⟩
  exact .cons (by decide) (.cons (by decide) .nil)

example : computeMeans [[0, 100], [0, 50, 2000]] = [0, 50, 2000, 100, 150, 2100] := by decide +kernel

/-! ### C45 -/

theorem sum_kronVec (a b : List Rat) : (kronVec a b).sum = a.sum * b.sum := by
  unfold kronVec
  induction a with
  | nil => simp
  | cons x a ih =>
    rw [List.flatMap_cons, List.sum_append, ih, List.sum_cons, List.sum_map_mul_left]
    simp
    ring

/-- A probability distribution. -/
def IsDistribution (v : List Rat) : Prop := (∀ x ∈ v, 0 ≤ x) ∧ v.sum = 1

theorem kronVec_distribution (a b : List Rat) (ha : IsDistribution a) (hb : IsDistribution b) :
    IsDistribution (kronVec a b) := by
  refine ⟨?_, by rw [sum_kronVec, ha.2, hb.2, mul_one]⟩
  intro z hz
  unfold kronVec at hz
  obtain ⟨x, hx, hz⟩ := List.mem_flatMap.1 hz
  obtain ⟨y, hy, rfl⟩ := List.mem_map.1 hz
  exact mul_nonneg (ha.1 x hx) (hb.1 y hy)

theorem tensor_distribution (l : List (List Rat)) (h : ∀ a ∈ l, IsDistribution a) : IsDistribution (tensor l) := by
  induction l with
  | nil => exact ⟨by simp [tensor], by simp [tensor]⟩
  | cons a l ih =>
    exact kronVec_distribution _ _ (h a List.mem_cons_self) (ih (fun x hx => h x (List.mem_cons_of_mem _ hx)))

/-- C45. The combined start vector is a probability distribution if every appliance's is. -/
theorem C45_start (pis : List (List Rat)) (hne : pis ≠ []) (h : ∀ p ∈ pis, IsDistribution p) :
    ∃ r, computePi pis = .ok r ∧ IsDistribution r :=
  ⟨_, computePi_eq pis hne, tensor_distribution pis h⟩

/-- C45. Every row of the combined transition matrix is a probability distribution if every row of every appliance's matrix
is. -/
theorem C45_transitions (as : List (List (List Rat))) (hne : as ≠ []) (h : ∀ a ∈ as, ∀ r ∈ a, IsDistribution r) :
    ∃ m, computeA as = .ok m ∧ ∀ r ∈ m, IsDistribution r := by
  refine ⟨_, computeA_eq as hne, ?_⟩
  clear hne
  induction as with
  | nil =>
    intro r hr
    rw [tensorMat, List.mem_singleton] at hr
    subst hr
    exact ⟨by simp, by simp⟩
  | cons a as ih =>
    intro r hr
    rw [tensorMat, kronMat] at hr
    obtain ⟨ra, hra, hr⟩ := List.mem_flatMap.1 hr
    obtain ⟨rb, hrb, rfl⟩ := List.mem_map.1 hr
    exact kronVec_distribution _ _ (h a List.mem_cons_self ra hra)
      (ih (fun x hx => h x (List.mem_cons_of_mem _ hx)) rb hrb)

/-- C45. Without any appliance model there is nothing to combine: `IndexError`. -/
theorem C45_empty : computePi [] = .error .indexError ∧ computeA [] = .error .indexError := ⟨rfl, rfl⟩

example : computePi [[1/4, 3/4], [1/2, 1/2]] = .ok [1/8, 1/8, 3/8, 3/8] := by decide +kernel

/-! ### C46 -/

theorem npSort_perm (l : List Rat) : (npSort l).Perm l := List.perm_insertionSort _ _

theorem sortingMapping_length (means : List Rat) : (sortingMapping means).length = means.length := by
  rw [sortingMapping, List.length_map, (npSort_perm means).length_eq]

theorem sortingMapping_get (means : List Rat) (i : Nat) (h : i < means.length) :
    ∃ k, (sortingMapping means)[i]? = some k ∧ k < means.length ∧ means[k]? = (npSort means)[i]? := by
  have hl : i < (npSort means).length := by rw [(npSort_perm means).length_eq]; exact h
  have hmem : (npSort means)[i] ∈ means := (npSort_perm means).mem_iff.1 (List.getElem_mem hl)
  refine ⟨means.findIdx (fun m => decide ((npSort means)[i] = m)), ?_, ?_, ?_⟩
  · rw [sortingMapping, List.getElem?_map, List.getElem?_eq_getElem hl]; rfl
  · exact List.findIdx_lt_length_of_exists ⟨_, hmem, by simp⟩
  · have hlt := List.findIdx_lt_length_of_exists (p := fun m => decide ((npSort means)[i] = m)) ⟨_, hmem, by simp⟩
    have := List.findIdx_getElem (w := hlt)
    simp only [decide_eq_true_eq] at this
    rw [List.getElem?_eq_getElem hlt, List.getElem?_eq_getElem hl, ← this]

/-- Looking up all positions of a mapping. -/
theorem mapM_ok {α β : Type} (l : List α) (f : α → Except Err β) (g : α → β) (h : ∀ a ∈ l, f a = .ok (g a)) :
    l.mapM f = .ok (l.map g) := by
  induction l with
  | nil => rfl
  | cons a l ih =>
    rw [List.mapM_cons, h a List.mem_cons_self, ih (fun x hx => h x (List.mem_cons_of_mem _ hx))]
    rfl

/-- C46. The parameters are rearranged consistently: there is one map of positions, the same for start probabilities,
covariances and both sides of the transition matrix, under which the new means are the old means, and the new means
are the old ones in ascending order. If the means are distinct, that map is a permutation of the states. -/
theorem C46_consistent {γ : Type} (h : Hmm γ) (h1 : h.startprob.length = h.means.length)
    (h2 : h.covars.length = h.means.length) (h3 : h.transmat.length = h.means.length)
    (h4 : ∀ r ∈ h.transmat, r.length = h.means.length) :
    ∃ (h' : Hmm γ) (σ : Nat → Nat), sortLearnt h = .ok h' ∧
      h'.means.Pairwise (· ≤ ·) ∧ h'.means.Perm h.means ∧
      h'.startprob.length = h.means.length ∧ h'.covars.length = h.means.length ∧
      h'.transmat.length = h.means.length ∧ (∀ r ∈ h'.transmat, r.length = h.means.length) ∧
      (∀ i < h.means.length, σ i < h.means.length ∧ h'.means[i]? = h.means[σ i]? ∧
        h'.startprob[i]? = h.startprob[σ i]? ∧ h'.covars[i]? = h.covars[σ i]? ∧
        ∀ j < h.means.length, matGet h'.transmat i j = matGet h.transmat (σ i) (σ j)) ∧
      (h.means.Nodup → ∀ i j, i < h.means.length → j < h.means.length → σ i = σ j → i = j) := by
  set n := h.means.length with hn
  set σ : Nat → Nat := fun i => (sortingMapping h.means).getD i 0 with hσ
  have hmap : ∀ i < n, (sortingMapping h.means)[i]? = some (σ i) ∧ σ i < n ∧ h.means[σ i]? = (npSort h.means)[i]? := by
    intro i hi
    obtain ⟨k, k1, k2, k3⟩ := sortingMapping_get h.means i hi
    have : σ i = k := by rw [hσ]; simp [List.getD_eq_getElem?_getD, k1]
    rw [this]; exact ⟨k1, k2, k3⟩
  have hvec : ∀ {β : Type} (v : List β), v.length = n → ∃ w, sortVec (sortingMapping h.means) v = .ok w ∧ w.length = n ∧
      ∀ i < n, w[i]? = v[σ i]? := by
    intro β v hv
    cases v with
    | nil =>
      refine ⟨[], rfl, hv, ?_⟩
      intro i hi
      rw [← hv] at hi
      simp at hi
    | cons d v' =>
      generalize hvv : d :: v' = v at hv ⊢
      refine ⟨(List.range v.length).map (fun i : Nat => v.getD (σ i) d), ?_, by simpa using hv, ?_⟩
      · unfold sortVec
        apply mapM_ok
        intro i hi
        obtain ⟨k1, k2, _⟩ := hmap i (by have := List.mem_range.1 hi; omega)
        rw [k1]
        simp only
        rw [List.getElem?_eq_getElem (by omega), List.getD_eq_getElem _ _ (by omega)]
      · intro i hi
        obtain ⟨k1, k2, _⟩ := hmap i hi
        rw [List.getElem?_map, List.getElem?_range (by omega)]
        rw [Option.map_some, List.getD_eq_getElem _ _ (by omega), List.getElem?_eq_getElem (by omega)]
  obtain ⟨s, s1, s2, s3⟩ := hvec h.startprob h1
  obtain ⟨c, c1, c2, c3⟩ := hvec h.covars h2
  have hget : ∀ i < n, ∀ j < n, ∃ x, matGet h.transmat i j = some x := by
    intro i hi j hj
    have hr := h4 (h.transmat[i]'(by omega)) (List.getElem_mem _)
    refine ⟨(h.transmat[i]'(by omega))[j]'(by omega), ?_⟩
    unfold matGet
    rw [List.getElem?_eq_getElem (by omega), Option.bind_some, List.getElem?_eq_getElem (by omega)]
  have hmat : sortMat (sortingMapping h.means) h.transmat = .ok ((List.range n).map (fun i : Nat =>
      (List.range n).map (fun j : Nat => (matGet h.transmat (σ i) (σ j)).getD 0))) := by
    unfold sortMat
    rw [h3]
    apply mapM_ok
    intro i hi
    apply mapM_ok
    intro j hj
    have hi := List.mem_range.1 hi
    have hj := List.mem_range.1 hj
    obtain ⟨k1, k2, _⟩ := hmap i hi
    obtain ⟨l1, l2, _⟩ := hmap j hj
    obtain ⟨x, hx⟩ := hget _ k2 _ l2
    simp only [k1, l1, hx, Option.getD_some]
  refine ⟨⟨s, npSort h.means, c, (List.range n).map (fun i : Nat =>
      (List.range n).map (fun j : Nat => (matGet h.transmat (σ i) (σ j)).getD 0))⟩, σ, ?_, ?_, npSort_perm _, s2, c2, ?_, ?_, ?_, ?_⟩
  · unfold sortLearnt
    rw [s1, c1, hmat]
  · exact List.pairwise_insertionSort _ _
  · simp
  · intro r hr
    obtain ⟨i, _, rfl⟩ := List.mem_map.1 hr
    simp
  · intro i hi
    obtain ⟨k1, k2, k3⟩ := hmap i hi
    refine ⟨k2, k3.symm, s3 i hi, c3 i hi, ?_⟩
    intro j hj
    obtain ⟨l1, l2, _⟩ := hmap j hj
    obtain ⟨x, hx⟩ := hget _ k2 _ l2
    rw [hx]
    unfold matGet at hx ⊢
    rw [List.getElem?_map, List.getElem?_range hi, Option.map_some, Option.bind_some, List.getElem?_map,
      List.getElem?_range hj, Option.map_some, hx]
    rfl
  · intro hnd i j hi hj hij
    obtain ⟨_, _, k3⟩ := hmap i hi
    obtain ⟨_, _, l3⟩ := hmap j hj
    have hnd' : (npSort h.means).Nodup := (npSort_perm _).nodup_iff.2 hnd
    rw [hij, l3] at k3
    have hl : (npSort h.means).length = n := (npSort_perm _).length_eq
    exact ((List.getElem?_inj (by omega) hnd').1 k3.symm)

/-- Two lists related by an injective map of positions are permutations of each other. -/
theorem perm_of_positions {α : Type} (v w : List α) (n : Nat) (hv : v.length = n) (hw : w.length = n) (σ : Nat → Nat)
    (h1 : ∀ i < n, σ i < n ∧ w[i]? = v[σ i]?) (hinj : ∀ i j, i < n → j < n → σ i = σ j → i = j) : w.Perm v := by
  have hpos : ((List.range n).map σ).Perm (List.range n) := by
    have hnd : ((List.range n).map σ).Nodup := by
      rw [List.nodup_map_iff_inj_on List.nodup_range]
      intro i hi j hj hij
      exact hinj i j (List.mem_range.1 hi) (List.mem_range.1 hj) hij
    have hsub : (List.range n).map σ ⊆ List.range n := by
      intro x hx
      obtain ⟨i, hi, rfl⟩ := List.mem_map.1 hx
      exact List.mem_range.2 (h1 i (List.mem_range.1 hi)).1
    exact (List.subperm_of_subset hnd hsub).perm_of_length_le (by simp)
  have hw' : w = ((List.range n).map σ).filterMap (fun k : Nat => v[k]?) := by
    rw [List.filterMap_map]
    have : (List.range n).filterMap ((fun k : Nat => v[k]?) ∘ σ) = (List.range n).filterMap (fun k : Nat => w[k]?) := by
      apply List.filterMap_congr
      intro i hi
      exact (h1 i (List.mem_range.1 hi)).2.symm
    rw [this, ← hw]
    clear this
    induction w using List.reverseRecOn generalizing n v with
    | nil => rfl
    | append_singleton w x ih =>
      clear ih
      apply List.ext_getElem?
      intro i
      have hall : (List.range (w ++ [x]).length).filterMap (fun k : Nat => (w ++ [x])[k]?) =
          (List.range (w ++ [x]).length).map (fun k : Nat => (w ++ [x]).getD k x) := by
        rw [← List.filterMap_eq_map]
        apply List.filterMap_congr
        intro k hk
        have := List.mem_range.1 hk
        rw [Function.comp, List.getElem?_eq_getElem this, List.getD_eq_getElem _ _ this]
      rw [hall, List.getElem?_map]
      by_cases hi : i < (w ++ [x]).length
      · rw [List.getElem?_range hi, Option.map_some, List.getElem?_eq_getElem hi, List.getD_eq_getElem _ _ hi]
      · rw [List.getElem?_eq_none (by omega), List.getElem?_eq_none (by simpa using hi)]
        rfl
  have hv' : v = (List.range n).filterMap (fun k : Nat => v[k]?) := by
    apply List.ext_getElem?
    intro i
    cases v with
    | nil => subst hv; rfl
    | cons x v' =>
      generalize hvv : x :: v' = v at *
      have hall : (List.range n).filterMap (fun k : Nat => v[k]?) = (List.range n).map (fun k : Nat => v.getD k x) := by
        rw [← List.filterMap_eq_map]
        apply List.filterMap_congr
        intro k hk
        have := List.mem_range.1 hk
        rw [Function.comp, List.getElem?_eq_getElem (by omega), List.getD_eq_getElem _ _ (by omega)]
      rw [hall, List.getElem?_map]
      by_cases hi : i < n
      · rw [List.getElem?_range hi, Option.map_some, List.getElem?_eq_getElem (by omega),
          List.getD_eq_getElem _ _ (by omega)]
      · rw [List.getElem?_eq_none (by omega), List.getElem?_eq_none (by simpa using hi)]
        rfl
  rw [hw']
  conv_rhs => rw [hv']
  exact hpos.filterMap _

/-- C46. With distinct means the start probabilities and each row of transitions keep their sums. -/
theorem C46_sums_partial {γ : Type} (h : Hmm γ) (h1 : h.startprob.length = h.means.length)
    (h2 : h.covars.length = h.means.length) (h3 : h.transmat.length = h.means.length)
    (h4 : ∀ r ∈ h.transmat, r.length = h.means.length) (hnd : h.means.Nodup) :
    ∃ h', sortLearnt h = .ok h' ∧ h'.startprob.sum = h.startprob.sum ∧ h'.covars.Perm h.covars ∧
      ∀ r ∈ h'.transmat, ∃ r' ∈ h.transmat, r.sum = r'.sum := by
  obtain ⟨h', σ, k1, _, _, k2, k3, k4, k5, k6, k7⟩ := C46_consistent h h1 h2 h3 h4
  have hinj := k7 hnd
  refine ⟨h', k1, ?_, ?_, ?_⟩
  · exact (perm_of_positions h.startprob h'.startprob _ h1 k2 σ (fun i hi => ⟨(k6 i hi).1, (k6 i hi).2.2.1⟩) hinj).sum_eq
  · exact perm_of_positions h.covars h'.covars _ h2 k3 σ (fun i hi => ⟨(k6 i hi).1, (k6 i hi).2.2.2.1⟩) hinj
  · intro r hr
    obtain ⟨i, hi, rfl⟩ := List.getElem_of_mem hr
    have hin : i < h.means.length := by omega
    obtain ⟨g1, _, _, _, g5⟩ := k6 i hin
    have hσ : σ i < h.transmat.length := by omega
    refine ⟨h.transmat[σ i], List.getElem_mem hσ, ?_⟩
    refine (perm_of_positions (h.transmat[σ i]) (h'.transmat[i]) h.means.length (h4 _ (List.getElem_mem hσ)) (k5 _ hr) σ
      ?_ hinj).sum_eq
    intro j hj
    refine ⟨(k6 j hj).1, ?_⟩
    have := g5 j hj
    unfold matGet at this
    rw [List.getElem?_eq_getElem hi, List.getElem?_eq_getElem hσ] at this
    simpa using this

/-- C46: with two equal means the first of the two states is used twice, so the start probabilities no longer sum to one
and the second state is lost. -/
theorem C46_ties_counterexample :
    sortLearnt (⟨[1/4, 3/4], [5, 5], ["a", "b"], [[1/2, 1/2], [1/10, 9/10]]⟩ : Hmm String) =
      .ok ⟨[1/4, 1/4], [5, 5], ["a", "a"], [[1/2, 1/2], [1/2, 1/2]]⟩ := by
  decide +kernel

/-- C46. Whenever two means are equal, some state is used twice. -/
theorem C46_ties (means : List Rat) (h : ¬ means.Nodup) : ¬ (sortingMapping means).Nodup := by
  intro hnd
  apply h
  have := List.Nodup.of_map _ hnd
  exact (npSort_perm means).nodup_iff.1 this

example : sortLearnt (⟨[1/4, 3/4], [5, 2], ["a", "b"], [[1/2, 1/2], [1/10, 9/10]]⟩ : Hmm String) =
      .ok ⟨[3/4, 1/4], [2, 5], ["b", "a"], [[9/10, 1/10], [1/2, 1/2]]⟩ := by
  decide +kernel

end Nilmtk
