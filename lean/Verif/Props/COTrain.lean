import Verif.Model.COTrain
import Verif.Props.CO
/-!
C100: what combinatorial optimisation learns from readings.
-/
namespace Nilmtk

/-! ### Specification -/

/-- What is assumed about scikit-learn and numpy: there are as many centres as clusters, each lying between two values of the data (it is
the mean of some of them); the score needs two clusters; the random indices are in range. -/
structure GoodLibrary (lib : Sklearn) : Prop where
  count : ∀ data n c, lib.centres data n = some c → c.length = n
  between : ∀ data n c, lib.centres data n = some c → ∀ x ∈ c, ∃ lo ∈ data, ∃ hi ∈ data, lo ≤ x ∧ x ≤ hi
  single : ∀ data, lib.score data 1 = none
  random : ∀ n, ∀ i ∈ lib.randint n, i < n

/-- A power that may be predicted for an appliance with these readings: off, or at least 10 W and not more than a reading, rounded. -/
def Plausible (readings : List (Option Rat)) (s : Int) : Prop :=
  s = 0 ∨ (10 ≤ s ∧ ∃ r, some r ∈ readings ∧ 10 < r ∧ (s : Rat) ≤ r + 1 / 2)

/-- The number of readings above 10 W. -/
def onReadings (readings : List (Option Rat)) : Nat := readings.countP (fun r => r.any (fun x => decide (10 < x)))

/-- What is learnt from the readings of an appliance: at most `limit` states in ascending order, off among them; nothing but off from fewer
than 20 readings above 10 W. -/
structure Learnt (limit : Nat) (readings : List (Option Rat)) (states : List Int) : Prop where
  ascending : states.Pairwise (· < ·)
  off : 0 ∈ states
  few : states.length ≤ limit
  plausible : ∀ s ∈ states, Plausible readings s
  quiet : onReadings readings < 20 → states = [0]

/-- The limit for a call with this number of appliances. -/
def stateLimit (appliances : Nat) : Nat := if appliances ≤ 12 then 3 else 2

/-! ### One appliance -/

theorem above_length (readings : List (Option Rat)) :
    ((readings.filterMap id).filter (fun x => decide (10 < x))).length = onReadings readings := by
  unfold onReadings
  induction readings with
  | nil => rfl
  | cons r rs ih =>
    rw [List.countP_cons, ← ih]
    cases r with
    | none => simp
    | some x =>
      by_cases h : 10 < x
      · simp [h]
      · simp [h]

theorem mem_above (readings : List (Option Rat)) (x : Rat) :
    x ∈ (readings.filterMap id).filter (fun x => decide (10 < x)) ↔ some x ∈ readings ∧ 10 < x := by
  rw [List.mem_filter, List.mem_filterMap]
  simp

theorem transformData_mem (lib : Sklearn) (hl : GoodLibrary lib) (readings : List (Option Rat)) (x : Rat) (hx : x ∈ transformData lib readings) :
    (x = 0 ∧ onReadings readings < 20) ∨ (some x ∈ readings ∧ 10 < x ∧ 20 ≤ onReadings readings) := by
  unfold transformData at hx
  simp only [above_length] at hx
  by_cases h : onReadings readings < 20
  · rw [if_pos h] at hx
    exact Or.inl ⟨List.eq_of_mem_replicate hx, h⟩
  · rw [if_neg h] at hx
    right
    have hin : x ∈ (readings.filterMap id).filter (fun x => decide (10 < x)) := by
      split at hx
      · obtain ⟨i, hi, rfl⟩ := List.mem_map.1 hx
        have hlt := hl.random _ i hi
        rw [← above_length] at hlt
        rw [List.getD_eq_getElem?_getD, List.getElem?_eq_getElem hlt, Option.getD_some]
        exact List.getElem_mem hlt
      · exact hx
    obtain ⟨h1, h2⟩ := (mem_above readings x).1 hin
    exact ⟨h1, h2, by omega⟩

theorem clusterReadings_learnt (lib : Sklearn) (hl : GoodLibrary lib) (readings : List (Option Rat)) (maxNum : Nat) (hmax : 2 ≤ maxNum) :
    ∃ states, clusterReadings lib readings maxNum = .ok states ∧ Learnt maxNum readings states := by
  unfold clusterReadings
  simp only
  obtain ⟨states, h⟩ := C62_total (lib.centres (transformData lib readings)) (lib.score (transformData lib readings))
    (hl.single _) maxNum hmax
  refine ⟨states, h, ?_⟩
  obtain ⟨h1, h2, h3, c, h4, h5, _⟩ := C62_states _ (fun n c hc => le_of_eq (hl.count _ n c hc)) _ maxNum hmax states h
  have key : ∀ s ∈ states, s = 0 ∨ (20 ≤ onReadings readings ∧ 10 ≤ s ∧ ∃ r, some r ∈ readings ∧ 10 < r ∧ (s : Rat) ≤ r + 1 / 2) := by
    intro s hs
    rcases h5 s hs with h0 | ⟨x, hx, hnear⟩
    · exact Or.inl h0
    · rw [abs_le] at hnear
      have hzero : x = 0 → s = 0 := by
        rintro rfl
        have a1 : (s : Rat) < 1 := by linarith [hnear.1]
        have a2 : (-1 : Rat) < s := by linarith [hnear.2]
        have b1 : s < 1 := by exact_mod_cast a1
        have b2 : -1 < s := by exact_mod_cast a2
        omega
      rcases h4 with rfl | ⟨n, _, _, hc⟩
      · exact Or.inl (hzero (List.mem_singleton.1 hx))
      · obtain ⟨lo, hlo, hi, hhi, e1, e2⟩ := hl.between _ n c hc x hx
        rcases transformData_mem lib hl readings lo hlo with ⟨l1, l2⟩ | ⟨l1, l2, l3⟩
        · rcases transformData_mem lib hl readings hi hhi with ⟨k1, k2⟩ | ⟨k1, k2, k3⟩
          · exact Or.inl (hzero (le_antisymm (k1 ▸ e2) (l1 ▸ e1)))
          · omega
        · rcases transformData_mem lib hl readings hi hhi with ⟨k1, k2⟩ | ⟨k1, k2, k3⟩
          · omega
          · right
            refine ⟨l3, ?_, hi, k1, k2, by linarith [hnear.1]⟩
            have : (9 : Rat) < s := by linarith [hnear.2]
            have : (9 : Int) < s := by exact_mod_cast this
            omega
  refine ⟨h1, h2, h3, ?_, ?_⟩
  · intro s hs
    rcases key s hs with h | ⟨_, h⟩
    · exact Or.inl h
    · exact Or.inr h
  · intro hq
    have hall : ∀ s ∈ states, s = 0 := by
      intro s hs
      rcases key s hs with h | ⟨h, _⟩
      · exact h
      · omega
    match states, h1, h2, hall with
    | [s], _, _, hall => rw [hall s List.mem_cons_self]
    | s :: t :: rest, h1, _, hall =>
      have := (List.pairwise_cons.1 h1).1 t List.mem_cons_self
      rw [hall s List.mem_cons_self, hall t (List.mem_cons_of_mem _ List.mem_cons_self)] at this
      exact absurd this (lt_irrefl _)

/-! ### A call -/

theorem coFitLoop_learnt (lib : Nat → Sklearn) (hl : ∀ i, GoodLibrary (lib i)) (maxNum : Nat) (hmax : 2 ≤ maxNum) (inModel : List String) :
    ∀ (as : List (String × List (Option Rat))) (i : Nat) (m : List (String × List Int)),
    ∃ new, coFitLoop lib maxNum inModel as i m = (m ++ new, none) ∧
      List.Forall₂ (fun a e => e.1 = a.1 ∧ Learnt maxNum a.2 e.2) (as.filter (fun a => decide (a.1 ∉ inModel))) new := by
  intro as
  induction as with
  | nil => intro i m; exact ⟨[], by rw [List.append_nil]; rfl, List.Forall₂.nil⟩
  | cons a as ih =>
    intro i m
    unfold coFitLoop
    by_cases h : a.1 ∈ inModel
    · rw [if_pos h, List.filter_cons_of_neg (by simpa using h)]
      exact ih (i + 1) m
    · rw [if_neg h, List.filter_cons_of_pos (by simpa using h)]
      obtain ⟨states, h1, h2⟩ := clusterReadings_learnt (lib i) (hl i) a.2 maxNum hmax
      obtain ⟨new, k1, k2⟩ := ih (i + 1) (m ++ [(a.1, states)])
      refine ⟨(a.1, states) :: new, ?_, List.Forall₂.cons ⟨rfl, h2⟩ k2⟩
      rw [h1]
      simp only
      rw [k1, List.append_assoc]
      rfl

theorem concatAppliances_ok : ∀ as : List (String × List (List (Option Rat))), (∀ a ∈ as, a.2 ≠ []) →
    concatAppliances as = .ok (as.map (fun a => (a.1, a.2.flatten))) := by
  intro as
  induction as with
  | nil => intro _; rfl
  | cons a as ih =>
    intro h
    unfold concatAppliances concatReadings
    rw [if_neg (h a List.mem_cons_self)]
    simp only
    rw [ih (fun x hx => h x (List.mem_cons_of_mem _ hx))]
    rfl

theorem maxNumClusters_limit (n : Nat) : maxNumClusters n = stateLimit n := by
  unfold maxNumClusters stateLimit
  by_cases h : n ≤ 12
  · rw [if_neg (by omega), if_pos h]
  · rw [if_pos (by omega), if_neg h]

/-- C100. A training call learns the appliances of the call that were not learnt before, in their order, each from all its frames
together, with at most three states, or two if the call has more than 12 appliances; what was learnt before stays as it is. -/
theorem C100_fit (lib : Nat → Sklearn) (hl : ∀ i, GoodLibrary (lib i)) (c : CO) (mains : List (List (Option Rat))) (hm : mains ≠ [])
    (appliances : List (String × List (List (Option Rat)))) (ha : ∀ a ∈ appliances, a.2 ≠ []) :
    ∃ new, c.train lib mains appliances = (⟨c.model ++ new, c.table⟩, none) ∧
      List.Forall₂ (fun a e => e.1 = a.1 ∧ Learnt (stateLimit appliances.length) a.2.flatten e.2)
        (appliances.filter (fun a => decide (a.1 ∉ c.model.map Prod.fst))) new := by
  obtain ⟨new, h1, h2⟩ := coFitLoop_learnt lib hl (stateLimit appliances.length) (by unfold stateLimit; split <;> omega)
    (c.model.map Prod.fst) (appliances.map (fun a => (a.1, a.2.flatten))) 0 c.model
  refine ⟨new, ?_, ?_⟩
  · unfold CO.train concatReadings
    rw [if_neg hm]
    simp only
    rw [concatAppliances_ok appliances ha]
    simp only [List.length_map, maxNumClusters_limit, h1]
  · rw [List.filter_map, List.forall₂_map_left_iff] at h2
    exact h2

theorem concatAppliances_bad : ∀ as : List (String × List (List (Option Rat))), (∃ a ∈ as, a.2 = []) →
    concatAppliances as = .error .valueError := by
  intro as
  induction as with
  | nil => rintro ⟨a, ha, _⟩; cases ha
  | cons a as ih =>
    rintro ⟨x, hx, he⟩
    unfold concatAppliances concatReadings
    by_cases h : a.2 = []
    · rw [if_pos h]
    · rw [if_neg h]
      simp only
      rw [ih ⟨x, (List.mem_cons.1 hx).resolve_left (by rintro rfl; exact h he), he⟩]

/-- C100. Without frames of the mains, or of some appliance, `ValueError` is raised and nothing is learnt. -/
theorem C100_refused (lib : Nat → Sklearn) (c : CO) (mains : List (List (Option Rat))) (appliances : List (String × List (List (Option Rat))))
    (h : mains = [] ∨ ∃ a ∈ appliances, a.2 = []) : c.train lib mains appliances = (c, some .valueError) := by
  unfold CO.train
  by_cases hm : mains = []
  · rw [hm]
    rfl
  · unfold concatReadings
    rw [if_neg hm]
    simp only
    rw [concatAppliances_bad appliances (h.resolve_left hm)]

/-! ### The number of combinations, and predictions -/

theorem cartesian_length (l : List (List Int)) (k : Nat) (h : ∀ s ∈ l, s.length ≤ k) : (cartesian l).length ≤ k ^ l.length := by
  induction l with
  | nil => exact le_refl _
  | cons s ss ih =>
    have h1 : (cartesian (s :: ss)).length = s.length * (cartesian ss).length := by
      rw [cartesian, List.length_flatMap]
      simp
    rw [h1, List.length_cons, pow_succ, Nat.mul_comm]
    exact Nat.mul_le_mul (ih (fun x hx => h x (List.mem_cons_of_mem _ hx))) (h s List.mem_cons_self)

theorem trained_fresh (lib : Nat → Sklearn) (hl : ∀ i, GoodLibrary (lib i)) (mains : List (List (Option Rat))) (hm : mains ≠ [])
    (appliances : List (String × List (List (Option Rat)))) (ha : ∀ a ∈ appliances, a.2 ≠ []) :
    ∃ new, CO.init.train lib mains appliances = (⟨new, none⟩, none) ∧
      List.Forall₂ (fun a e => e.1 = a.1 ∧ Learnt (stateLimit appliances.length) a.2.flatten e.2) appliances new := by
  obtain ⟨new, h1, h2⟩ := C100_fit lib hl CO.init mains hm appliances ha
  refine ⟨new, h1, ?_⟩
  have : appliances.filter (fun a => decide (a.1 ∉ CO.init.model.map Prod.fst)) = appliances := by
    rw [List.filter_eq_self]
    intro a _
    simp [CO.init]
  rwa [this] at h2

/-- C100. After one training call with `n` appliances the table has at most 3ⁿ combinations, or 2ⁿ with more than 12 appliances. -/
theorem C100_combinations (argsort : List Rat → List Nat) (lib : Nat → Sklearn) (hl : ∀ i, GoodLibrary (lib i))
    (mains : List (List (Option Rat))) (hm : mains ≠ []) (appliances : List (String × List (List (Option Rat)))) (hne : appliances ≠ [])
    (ha : ∀ a ∈ appliances, a.2 ≠ []) (test : List (List (Option Rat))) :
    ∃ t, (((CO.init.train lib mains appliances).1).disaggregate argsort test).1.table = some t ∧
      t.rows.length ≤ (if appliances.length ≤ 12 then 3 else 2) ^ appliances.length := by
  obtain ⟨new, h1, h2⟩ := trained_fresh lib hl mains hm appliances ha
  have hlen := h2.length_eq
  have hnew : new ≠ [] := by
    rintro rfl
    exact hne (List.length_eq_zero_iff.1 hlen)
  rw [h1]
  refine ⟨⟨new.length, cartesian (new.map Prod.snd)⟩, ?_, ?_⟩
  · have hs := (setCombinations_spec ⟨new, none⟩ (fun t ht => by cases ht)).2 hnew
    unfold CO.disaggregate
    simp only [hs]
    split <;> rfl
  · have := cartesian_length (new.map Prod.snd) (stateLimit appliances.length) (by
      intro s hs
      obtain ⟨e, he, rfl⟩ := List.mem_map.1 hs
      obtain ⟨i, hi, hie⟩ := List.getElem_of_mem he
      have := (List.forall₂_iff_get.1 h2).2 i (by omega) hi
      rw [← hie]
      exact this.2.few)
    rw [List.length_map, ← hlen] at this
    exact this

/-- C100. Every power predicted after one training call with appliances of distinct names is plausible for its appliance, whatever the
mains are: 0, or at least 10 W and no more than the highest reading it was trained with, rounded. An appliance with fewer than 20 readings
above 10 W is never predicted to be on. -/
theorem C100_predictions (argsort : List Rat → List Nat) (hsort : ∀ l, IsArgsort l (argsort l)) (lib : Nat → Sklearn)
    (hl : ∀ i, GoodLibrary (lib i)) (mains : List (List (Option Rat))) (hm : mains ≠ [])
    (appliances : List (String × List (List (Option Rat)))) (hne : appliances ≠ []) (ha : ∀ a ∈ appliances, a.2 ≠ [])
    (hnd : (appliances.map Prod.fst).Nodup) (test : List (List (Option Rat))) :
    ∃ frames, (((CO.init.train lib mains appliances).1).disaggregate argsort test).2 = .ok frames ∧ frames.length = test.length ∧
      ∀ frame ∈ frames, List.Forall₂ (fun a col => col.1 = a.1 ∧ ∀ v ∈ col.2, Plausible a.2.flatten v ∧
        (onReadings a.2.flatten < 20 → v = 0)) appliances frame := by
  obtain ⟨new, h1, h2⟩ := trained_fresh lib hl mains hm appliances ha
  have hlen := h2.length_eq
  have hnew : new ≠ [] := by
    rintro rfl
    exact hne (List.length_eq_zero_iff.1 hlen)
  have hget := (List.forall₂_iff_get.1 h2).2
  have hnames : new.map Prod.fst = appliances.map Prod.fst := by
    apply List.ext_getElem
    · simp [hlen]
    · intro i hi hj
      rw [List.length_map] at hi hj
      rw [List.getElem_map, List.getElem_map]
      exact (hget i hj hi).1
  rw [h1]
  have hrun : CO.run argsort CO.init [.fit new] = ⟨new, none⟩ := by
    show CO.init.partialFit new = _
    have hmod := C43_fit CO.init new
    have : new.filter (fun a => decide (a.1 ∉ CO.init.model.map Prod.fst)) = new := by
      rw [List.filter_eq_self]
      intro a _
      simp [CO.init]
    rw [this] at hmod
    unfold CO.partialFit at hmod ⊢
    simp only at hmod
    rw [hmod]
    rfl
  have hstates : ∀ a ∈ (⟨new, none⟩ : CO).model, a.2 ≠ [] := by
    intro e he hc
    obtain ⟨i, hi, hie⟩ := List.getElem_of_mem he
    have hi' : i < new.length := hi
    have := (hget i (by omega) hi').2.off
    rw [show new.get ⟨i, hi⟩ = e from hie, hc] at this
    cases this
  obtain ⟨frames, f1, f2⟩ := C42_optimal argsort hsort [.fit new] ⟨new, none⟩ hrun hnew hstates (by show (new.map Prod.fst).Nodup; rw [hnames]; exact hnd) test
  obtain ⟨frames', g1, g2⟩ := C42_nan argsort hsort [.fit new] ⟨new, none⟩ hrun hnew hstates (by show (new.map Prod.fst).Nodup; rw [hnames]; exact hnd) test
  rw [f1] at g1
  obtain rfl : frames = frames' := by injection g1
  refine ⟨frames, f1, f2.length_eq.symm, ?_⟩
  intro frame hframe
  obtain ⟨n, hn, rfl⟩ := List.getElem_of_mem hframe
  have hn' : n < test.length := by rw [f2.length_eq]; exact hn
  obtain ⟨k1, k2, k3⟩ := (List.forall₂_iff_get.1 f2).2 n hn' hn
  have k4 := (List.forall₂_iff_get.1 g2).2 n hn' hn
  simp only [List.get_eq_getElem] at k1 k2 k3 k4
  rw [List.forall₂_iff_get]
  have hflen : frames[n].length = new.length := by
    have := congrArg List.length k1
    simpa using this
  refine ⟨by omega, ?_⟩
  intro i hi hj
  have hi' : i < new.length := by omega
  have hgi := hget i hi hi'
  simp only [List.get_eq_getElem] at hgi ⊢
  refine ⟨?_, ?_⟩
  · rw [← hgi.1]
    have : (frames[n].map Prod.fst)[i]'(by rw [List.length_map]; exact hj) = (new.map Prod.fst)[i]'(by rw [List.length_map]; exact hi') :=
      List.getElem_of_eq k1 _
    simpa using this
  · intro v hv
    obtain ⟨j, hjl, hjv⟩ := List.getElem_of_mem hv
    have hrow : j < test[n].length := by
      rw [← k2 _ (List.getElem_mem hj)]
      exact hjl
    have hchoice : IsChoice (new.map Prod.snd) (frames[n].map (fun col => col.2.getD j 0)) := by
      cases hx : test[n][j] with
      | none => exact (k4 j (by rw [List.getElem?_eq_getElem hrow, hx])).1
      | some x => exact (k3 j x (by rw [List.getElem?_eq_getElem hrow, hx])).1
    have hmem : v ∈ new[i].2 := by
      have hf := (List.forall₂_iff_get.1 hchoice).2 i (by rw [List.length_map]; exact hi') (by rw [List.length_map]; exact hj)
      simp only [List.get_eq_getElem, List.getElem_map] at hf
      rw [List.getD_eq_getElem?_getD, List.getElem?_eq_getElem hjl, Option.getD_some, hjv] at hf
      exact hf
    refine ⟨hgi.2.plausible v hmem, ?_⟩
    intro hq
    have := hgi.2.quiet hq
    rw [this] at hmem
    exact List.mem_singleton.1 hmem

/-! ### Examples -/

/-- A library that takes the first and the last value as centres. -/
def endsLibrary : Sklearn where
  centres := fun data n =>
    match data.head?, data.getLast?, n with
    | some a, some _, 1 => some [a]
    | some a, some b, 2 => some [a, b]
    | _, _, _ => none
  score := fun _ n => if n = 2 then some (1 / 2) else none
  randint := fun n => if n = 0 then [] else List.replicate 2000 (n - 1)

theorem endsLibrary_good : GoodLibrary endsLibrary := by
  have hc : ∀ data n c, endsLibrary.centres data n = some c →
      ∃ a b, a ∈ data ∧ b ∈ data ∧ ((n = 1 ∧ c = [a]) ∨ (n = 2 ∧ c = [a, b])) := by
    intro data n c h
    unfold endsLibrary at h
    simp only at h
    split at h
    · rename_i a b h1 h2
      exact ⟨a, b, List.mem_of_head? h1, List.mem_of_getLast? h2, Or.inl ⟨rfl, by injection h with h; exact h.symm⟩⟩
    · rename_i a b h1 h2
      exact ⟨a, b, List.mem_of_head? h1, List.mem_of_getLast? h2, Or.inr ⟨rfl, by injection h with h; exact h.symm⟩⟩
    · cases h
  refine ⟨?_, ?_, fun _ => rfl, ?_⟩
  · intro data n c h
    obtain ⟨a, b, _, _, ⟨rfl, rfl⟩ | ⟨rfl, rfl⟩⟩ := hc data n c h <;> rfl
  · intro data n c h x hx
    obtain ⟨a, b, h1, h2, ⟨_, rfl⟩ | ⟨_, rfl⟩⟩ := hc data n c h
    · rw [List.mem_singleton] at hx
      subst hx
      exact ⟨x, h1, x, h1, le_refl _, le_refl _⟩
    · rcases List.mem_cons.1 hx with rfl | hx
      · exact ⟨x, h1, x, h1, le_refl _, le_refl _⟩
      · rw [List.mem_singleton] at hx
        subst hx
        exact ⟨x, h2, x, h2, le_refl _, le_refl _⟩
  · intro n i hi
    unfold endsLibrary at hi
    simp only at hi
    split at hi
    · cases hi
    · have := List.eq_of_mem_replicate hi
      omega

/-- Twelve readings of 50.5 W and of 1000 W, in two frames. -/
def twoLevels : List (List (Option Rat)) := [none :: List.replicate 12 (some (101 / 2)), List.replicate 12 (some 1000)]

example : CO.init.train (fun _ => endsLibrary) [[some 5]] [("kettle", twoLevels), ("lamp", [List.replicate 19 (some 60)])] =
    (⟨[("kettle", [0, 50, 1000]), ("lamp", [0])], none⟩, none) := by decide +kernel

/-- C100: the number of appliances is counted for each call. Trained in two calls of seven appliances, all 14 appliances have three states,
although with more than 12 there should be two. -/
theorem C100_two_calls_counterexample :
    ∃ lib, GoodLibrary lib ∧ ∃ first second : List (String × List (List (Option Rat))),
      let c := ((CO.init.train (fun _ => lib) [[some 5]] first).1.train (fun _ => lib) [[some 5]] second).1
      c.model.length = 14 ∧ ∀ e ∈ c.model, e.2.length = 3 := by
  refine ⟨endsLibrary, endsLibrary_good, ["a", "b", "c", "d", "e", "f", "g"].map (fun n => (n, twoLevels)),
    ["h", "i", "j", "k", "l", "m", "n"].map (fun n => (n, twoLevels)), ?_⟩
  decide +kernel

end Nilmtk
