import Verif.Model.CO
import Verif.Props.Utils
import Mathlib.Tactic.Ring
import Mathlib.Data.List.Dedup
import Mathlib.Tactic.ByContra
/-!
C42, C43: combinatorial optimisation. C62: learnt states.
-/
namespace Nilmtk

/-- One state chosen for every appliance. -/
def IsChoice (states : List (List Int)) (row : List Int) : Prop := List.Forall₂ (fun s x => x ∈ s) states row

theorem mem_cartesian (ss : List (List Int)) (r : List Int) : r ∈ cartesian ss ↔ IsChoice ss r := by
  unfold IsChoice
  induction ss generalizing r with
  | nil =>
    rw [cartesian, List.mem_singleton]
    constructor
    · rintro rfl; exact .nil
    · intro h; cases h; rfl
  | cons s ss ih =>
    rw [cartesian]
    simp only [List.mem_flatMap, List.mem_map]
    constructor
    · rintro ⟨x, hx, r', hr', rfl⟩
      exact .cons hx ((ih r').1 hr')
    · intro h
      cases h with
      | cons hx hr => exact ⟨_, hx, _, (ih _).2 hr, rfl⟩

theorem cartesian_ne_nil (ss : List (List Int)) (h : ∀ s ∈ ss, s ≠ []) : cartesian ss ≠ [] := by
  induction ss with
  | nil => simp [cartesian]
  | cons s ss ih =>
    have h1 := ih (fun x hx => h x (List.mem_cons_of_mem _ hx))
    obtain ⟨r, hr⟩ := List.exists_mem_of_ne_nil _ h1
    obtain ⟨x, hx⟩ := List.exists_mem_of_ne_nil _ (h s List.mem_cons_self)
    apply List.ne_nil_of_mem (a := x :: r)
    rw [cartesian, List.mem_flatMap]
    exact ⟨x, hx, List.mem_map.2 ⟨r, hr, rfl⟩⟩

/-! ### C43 -/

theorem fitLoop_eq (inModel : List String) (as m : List (String × List Int)) :
    fitLoop inModel as m = m ++ as.filter (fun a => decide (a.1 ∉ inModel)) := by
  induction as generalizing m with
  | nil => simp [fitLoop]
  | cons a as ih =>
    rw [fitLoop]
    by_cases h : a.1 ∈ inModel
    · rw [if_pos h, ih, List.filter_cons_of_neg (by simpa using h)]
    · rw [if_neg h, ih, List.filter_cons_of_pos (by simpa using h)]
      simp

/-- C43. Training keeps what was trained before and adds exactly the appliances of the call that were not
trained before, in their order. -/
theorem C43_fit (c : CO) (as : List (String × List Int)) :
    (c.partialFit as).model = c.model ++ as.filter (fun a => decide (a.1 ∉ c.model.map Prod.fst)) := by
  unfold CO.partialFit
  exact fitLoop_eq _ _ _

/-- The table is absent, or holds the combinations of the first appliances of the model. -/
def CO.Inv (c : CO) : Prop :=
  ∀ t, c.table = some t → t.cols ≤ c.model.length ∧ t.cols ≠ 0 ∧ t.rows = cartesian ((c.model.take t.cols).map Prod.snd)

theorem setCombinations_spec (c : CO) (h : c.Inv) :
    (c.model = [] → c.setCombinations = .error .exception) ∧
    (c.model ≠ [] → c.setCombinations = .ok ({ c with table := some ⟨c.model.length, cartesian (c.model.map Prod.snd)⟩ },
      ⟨c.model.length, cartesian (c.model.map Prod.snd)⟩)) := by
  obtain ⟨m, t⟩ := c
  cases t with
  | none => constructor <;> intro hm <;> simp only at hm <;> simp [CO.setCombinations, hm]
  | some t =>
    obtain ⟨h1, h2, h3⟩ := h t rfl
    simp only at h1 h3
    constructor
    · intro hm
      simp only at hm
      subst hm
      rw [List.length_nil] at h1
      exact absurd (by omega) h2
    · intro hm
      simp only at hm
      simp only [CO.setCombinations]
      by_cases hc : t.cols = m.length
      · rw [if_neg (by simpa using hc)]
        rw [hc, List.take_length] at h3
        obtain ⟨k, r⟩ := t
        simp only at hc h3
        rw [hc, h3]
      · rw [if_pos hc, if_neg hm]

theorem inv_set (c : CO) (hm : c.model ≠ []) :
    CO.Inv { c with table := some ⟨c.model.length, cartesian (c.model.map Prod.snd)⟩ } := by
  intro t ht
  simp only [Option.some.injEq] at ht
  subst ht
  refine ⟨le_refl _, ?_, ?_⟩
  · simpa using hm
  · simp

theorem disaggregate_inv (argsort : List Rat → List Nat) (c : CO) (h : c.Inv) (m : List (List (Option Rat))) :
    CO.Inv (c.disaggregate argsort m).1 ∧ (c.disaggregate argsort m).1.model = c.model := by
  obtain ⟨h1, h2⟩ := setCombinations_spec c h
  unfold CO.disaggregate
  by_cases hm : c.model = []
  · rw [h1 hm]; exact ⟨h, rfl⟩
  · rw [h2 hm]
    simp only
    split
    · exact ⟨inv_set c hm, rfl⟩
    · exact ⟨inv_set c hm, rfl⟩

theorem partialFit_inv (c : CO) (h : c.Inv) (as : List (String × List Int)) : (c.partialFit as).Inv := by
  intro t ht
  obtain ⟨h1, h2, h3⟩ := h t ht
  rw [C43_fit]
  refine ⟨by rw [List.length_append]; omega, h2, ?_⟩
  rw [List.take_append_of_le_length h1]
  exact h3

theorem run_inv (argsort : List Rat → List Nat) (h : List CoCall) (c : CO) (hc : c.Inv) : (CO.run argsort c h).Inv := by
  induction h generalizing c with
  | nil => exact hc
  | cons a h ih =>
    cases a with
    | fit as => exact ih _ (partialFit_inv c hc as)
    | disaggregate m => exact ih _ (disaggregate_inv argsort c hc m).1

theorem init_inv : CO.init.Inv := by intro t ht; cases ht

/-- Is the call a training call? -/
def CoCall.isFit : CoCall → Bool
  | .fit _ => true
  | .disaggregate _ => false

theorem run_model (argsort : List Rat → List Nat) (h : List CoCall) (c d : CO) (hc : c.Inv) (hd : d.Inv)
    (hcd : c.model = d.model) :
    (CO.run argsort c h).model = (CO.run argsort d (h.filter CoCall.isFit)).model := by
  induction h generalizing c d with
  | nil => exact hcd
  | cons a h ih =>
    cases a with
    | fit as =>
      rw [List.filter_cons_of_pos (by rfl)]
      exact ih _ _ (partialFit_inv c hc as) (partialFit_inv d hd as) (by rw [C43_fit, C43_fit, hcd])
    | disaggregate m =>
      rw [List.filter_cons_of_neg (by simp [CoCall.isFit])]
      obtain ⟨h1, h2⟩ := disaggregate_inv argsort c hc m
      exact ih _ _ h1 hd (h2.trans hcd)

theorem disaggregate_result (argsort : List Rat → List Nat) (c d : CO) (hc : c.Inv) (hd : d.Inv) (h : c.model = d.model)
    (m : List (List (Option Rat))) : (c.disaggregate argsort m).2 = (d.disaggregate argsort m).2 := by
  obtain ⟨h1, h2⟩ := setCombinations_spec c hc
  obtain ⟨h1', h2'⟩ := setCombinations_spec d hd
  unfold CO.disaggregate
  by_cases hm : c.model = []
  · rw [h1 hm, h1' (h ▸ hm)]
  · rw [h2 hm, h2' (h ▸ hm)]
    simp only [h]

/-- C43. Whatever calls were made before (including disaggregations between trainings, and calls that raised), the
predictions are those of a fresh object that has only been trained, with the same trainings. -/
theorem C43_history (argsort : List Rat → List Nat) (h : List CoCall) (m : List (List (Option Rat))) :
    ((CO.run argsort CO.init h).disaggregate argsort m).2 =
      ((CO.run argsort CO.init (h.filter CoCall.isFit)).disaggregate argsort m).2 :=
  disaggregate_result argsort _ _ (run_inv _ _ _ init_inv) (run_inv _ _ _ init_inv)
    (run_model argsort h _ _ init_inv init_inv rfl) m

/-- C43. The table in use after a disaggregation holds exactly the combinations of one state of every appliance trained so
far. -/
theorem C43_table (argsort : List Rat → List Nat) (h : List CoCall) (m : List (List (Option Rat)))
    (hm : (CO.run argsort CO.init h).model ≠ []) :
    ∃ t, ((CO.run argsort CO.init h).disaggregate argsort m).1 = ⟨(CO.run argsort CO.init h).model, some t⟩ ∧
      t.cols = (CO.run argsort CO.init h).model.length ∧
      ∀ r, r ∈ t.rows ↔ IsChoice ((CO.run argsort CO.init h).model.map Prod.snd) r := by
  generalize hc : CO.run argsort CO.init h = c at hm
  have hinv : c.Inv := hc ▸ run_inv _ _ _ init_inv
  refine ⟨⟨c.model.length, cartesian (c.model.map Prod.snd)⟩, ?_, rfl, fun r => mem_cartesian _ _⟩
  unfold CO.disaggregate
  rw [(setCombinations_spec c hinv).2 hm]
  simp only
  split <;> rfl

/-- C43. Disaggregating before any training raises. -/
theorem C43_untrained (argsort : List Rat → List Nat) (h : List CoCall) (m : List (List (Option Rat)))
    (hm : (CO.run argsort CO.init h).model = []) :
    ((CO.run argsort CO.init h).disaggregate argsort m).2 = .error .exception := by
  unfold CO.disaggregate
  rw [(setCombinations_spec _ (run_inv _ _ _ init_inv)).1 hm]

/-- C43. If an appliance has no state, disaggregating raises `IndexError` as soon as one of the frames has a reading. -/
theorem C43_no_states (argsort : List Rat → List Nat) (h : List CoCall) (m : List (List (Option Rat)))
    (a : String × List Int) (ha : a ∈ (CO.run argsort CO.init h).model) (hs : a.2 = []) (test : List (Option Rat)) (ht : test ∈ m)
    (hne : test ≠ []) : ((CO.run argsort CO.init h).disaggregate argsort m).2 = .error .indexError := by
  have hm : (CO.run argsort CO.init h).model ≠ [] := List.ne_nil_of_mem ha
  have hnil : cartesian ((CO.run argsort CO.init h).model.map Prod.snd) = [] := by
    rw [List.eq_nil_iff_forall_not_mem]
    intro r hr
    have hl := (mem_cartesian _ _).1 hr
    have hgen : ∀ (ss : List (List Int)) (r : List Int), IsChoice ss r → [] ∉ ss := by
      intro ss r h
      unfold IsChoice at h
      induction h with
      | nil => simp
      | cons h1 _ ih =>
        intro hc
        rcases List.mem_cons.1 hc with hc | hc
        · rw [← hc] at h1; cases h1
        · exact ih hc
    exact hgen _ r hl (List.mem_map.2 ⟨a, ha, hs⟩)
  unfold CO.disaggregate
  rw [(setCombinations_spec _ (run_inv _ _ _ init_inv)).2 hm]
  simp only
  rw [if_pos ⟨hnil, List.any_eq_true.2 ⟨test, ht, by simpa using hne⟩⟩]

example : ((CO.run (fun l => List.range l.length) CO.init [.fit [("fridge", [0, 90]), ("kettle", [])]]).disaggregate
    (fun l => List.range l.length) [[], [some 5]]).2 = .error .indexError := by
  decide +kernel

/-! ### C42 -/

theorem dictSet_new {ν : Type} (d : List (String × ν)) (k : String) (v : ν) (h : k ∉ d.map Prod.fst) :
    dictSet d k v = d ++ [(k, v)] := by
  unfold dictSet
  rw [if_neg h]

/-- The value of the `i`-th column for combination `k`. -/
theorem coColumns_eq (t : Combinations) (idx : List Nat) (as : List (String × List Int)) (i : Nat)
    (d : List (String × List Int)) (hnd : (d.map Prod.fst ++ as.map Prod.fst).Nodup) :
    coColumns t idx as i d = d ++ as.zipIdx.map (fun e =>
      (e.1.1, idx.map (fun k : Nat => (t.rows.getD k []).getD (i + e.2) 0))) := by
  induction as generalizing i d with
  | nil => simp [coColumns]
  | cons a as ih =>
    rw [coColumns]
    have hnew : a.1 ∉ d.map Prod.fst := by
      intro h
      rw [List.nodup_append] at hnd
      exact hnd.2.2 _ h _ List.mem_cons_self rfl
    rw [dictSet_new _ _ _ hnew, ih (i + 1) _ (by simpa using hnd)]
    rw [List.zipIdx_cons, List.map_cons, List.zipIdx_succ]
    simp [List.append_assoc, Nat.add_assoc, Nat.add_comm 1]

theorem getD_range_row (r : List Int) (n : Nat) (h : r.length = n) :
    (List.range n).map (fun i : Nat => r.getD i 0) = r := by
  apply List.ext_getElem
  · simp [h]
  · intro i h1 h2
    rw [List.getElem_map, List.getElem_range, List.getD_eq_getElem _ _ h2]

theorem zipIdx_row {β γ : Type} (as : List β) (f : Nat → γ) :
    as.zipIdx.map (fun e => f e.2) = (List.range as.length).map f := by
  rw [show (fun e : β × Nat => f e.2) = f ∘ Prod.snd from rfl, ← List.map_map, List.zipIdx_map_snd, List.range'_eq_map_range]
  simp

theorem nearestIndex_lt (known : List Rat) (order : List Nat) (h : IsArgsort known order) (hne : known ≠ [])
    (x : Option Rat) : nearestIndex known order x < known.length := by
  cases x with
  | some x => exact (findNearest1_spec known order h hne x).1
  | none =>
    have hpos : 0 < known.length := List.length_pos_of_ne_nil hne
    have hlen : order.length = known.length := by rw [h.1.length_eq, List.length_range]
    unfold nearestIndex
    rw [List.getD_eq_getElem _ _ (by omega)]
    have : order[known.length - 1] ∈ order := List.getElem_mem _
    exact List.mem_range.1 (h.1.mem_iff.1 this)

/-- What one prediction row must satisfy for one mains reading: a state of every appliance. -/
theorem disaggregate_rows (argsort : List Rat → List Nat) (hsort : ∀ l, IsArgsort l (argsort l)) (c : CO) (hc : c.Inv)
    (hm : c.model ≠ []) (hne : ∀ a ∈ c.model, a.2 ≠ []) (hnd : (c.model.map Prod.fst).Nodup)
    (mains : List (List (Option Rat))) :
    ∃ frames, (c.disaggregate argsort mains).2 = .ok frames ∧
      List.Forall₂ (fun test frame => frame.map Prod.fst = c.model.map Prod.fst ∧
        (∀ col ∈ frame, col.2.length = test.length) ∧
        ∀ (j : Nat) x, test[j]? = some x →
          ∃ row, frame.map (fun col => col.2.getD j 0) = row ∧
            (cartesian (c.model.map Prod.snd))[nearestIndex
              (comboSums ⟨c.model.length, cartesian (c.model.map Prod.snd)⟩)
              (argsort (comboSums ⟨c.model.length, cartesian (c.model.map Prod.snd)⟩)) x]? = some row) mains frames := by
  have hcart : cartesian (c.model.map Prod.snd) ≠ [] := by
    apply cartesian_ne_nil
    intro s hs
    obtain ⟨a, ha, rfl⟩ := List.mem_map.1 hs
    exact hne a ha
  unfold CO.disaggregate
  rw [(setCombinations_spec c hc).2 hm]
  simp only
  rw [if_neg (by simp [hcart])]
  refine ⟨_, rfl, ?_⟩
  rw [List.forall₂_map_right_iff, List.forall₂_same]
  intro test _
  rw [coColumns_eq _ _ _ _ _ (by simpa using hnd)]
  rw [List.nil_append]
  set t : Combinations := ⟨c.model.length, cartesian (c.model.map Prod.snd)⟩ with ht
  refine ⟨?_, ?_, ?_⟩
  · rw [List.map_map]
    have : (Prod.fst ∘ fun e : (String × List Int) × Nat => (e.1.1, (test.map (nearestIndex (comboSums t)
        (argsort (comboSums t)))).map (fun k : Nat => (t.rows.getD k []).getD (0 + e.2) 0))) = Prod.fst ∘ Prod.fst := rfl
    rw [this, ← List.map_map, List.zipIdx_map_fst]
  · intro col hcol
    obtain ⟨e, _, rfl⟩ := List.mem_map.1 hcol
    simp
  · intro j x hx
    refine ⟨_, rfl, ?_⟩
    have hk := nearestIndex_lt (comboSums t) (argsort (comboSums t)) (hsort _) (by simp [comboSums, ht, hcart]) x
    have hlen : (comboSums t).length = t.rows.length := by simp [comboSums]
    rw [hlen] at hk
    generalize hkk : nearestIndex (comboSums t) (argsort (comboSums t)) x = k at hk
    have hrow : t.rows[k] ∈ cartesian (c.model.map Prod.snd) := List.getElem_mem _
    have hrl : t.rows[k].length = c.model.length := by
      have := ((mem_cartesian _ _).1 hrow).length_eq
      rw [← this, List.length_map]
    show t.rows[k]? = _
    rw [List.getElem?_eq_getElem hk, Option.some.injEq, List.map_map]
    have hcol : ∀ e : (String × List Int) × Nat,
        ((fun col : String × List Int => col.2.getD j 0) ∘ fun e : (String × List Int) × Nat =>
          (e.1.1, (test.map (nearestIndex (comboSums t)
            (argsort (comboSums t)))).map (fun k : Nat => (t.rows.getD k []).getD (0 + e.2) 0))) e =
        (fun e => (fun i : Nat => (t.rows[k]).getD i 0) e.2) e := by
      intro e
      simp only [Function.comp, List.getD_eq_getElem?_getD, List.getElem?_map, hx, Option.map_some, hkk,
        Option.getD_some, Nat.zero_add, List.getElem?_eq_getElem hk]
    rw [List.map_congr_left (fun e _ => hcol e), zipIdx_row c.model (fun i : Nat => (t.rows[k]).getD i 0),
      getD_range_row _ _ hrl]

/-- C42. After any history of calls that trained appliances with distinct names: one frame per mains frame, one
column per appliance, one prediction per reading; the predictions for a reading are states of the respective
appliances and no other choice of states has a total closer to the reading. -/
theorem C42_optimal (argsort : List Rat → List Nat) (hsort : ∀ l, IsArgsort l (argsort l)) (h : List CoCall) (c : CO)
    (hc : CO.run argsort CO.init h = c)
    (hm : c.model ≠ []) (hne : ∀ a ∈ c.model, a.2 ≠ []) (hnd : (c.model.map Prod.fst).Nodup)
    (mains : List (List (Option Rat))) :
    ∃ frames, (c.disaggregate argsort mains).2 = .ok frames ∧
      List.Forall₂ (fun test frame => frame.map Prod.fst = c.model.map Prod.fst ∧
        (∀ col ∈ frame, col.2.length = test.length) ∧
        ∀ (j : Nat) x, test[j]? = some (some x) →
          IsChoice (c.model.map Prod.snd) (frame.map (fun col => col.2.getD j 0)) ∧
          ∀ other, IsChoice (c.model.map Prod.snd) other →
            |x - (((frame.map (fun col => col.2.getD j 0)).sum : Int) : Rat)| ≤ |x - ((other.sum : Int) : Rat)|)
        mains frames := by
  have hinv : c.Inv := hc ▸ run_inv _ _ _ init_inv
  obtain ⟨frames, h1, h2⟩ := disaggregate_rows argsort hsort c hinv hm hne hnd mains
  refine ⟨frames, h1, h2.imp ?_⟩
  rintro test frame ⟨k1, k2, k3⟩
  refine ⟨k1, k2, ?_⟩
  intro j x hx
  obtain ⟨row, hrow, hget⟩ := k3 j (some x) hx
  rw [hrow]
  have hmem := List.mem_of_getElem? hget
  refine ⟨(mem_cartesian _ _).1 hmem, ?_⟩
  intro other ho
  have hom := (mem_cartesian _ _).2 ho
  set t : Combinations := ⟨c.model.length, cartesian (c.model.map Prod.snd)⟩ with ht
  have hsne : comboSums t ≠ [] := by
    simp only [comboSums, ht, ne_eq, List.map_eq_nil_iff]
    exact List.ne_nil_of_mem hmem
  obtain ⟨n1, n2, n3⟩ := findNearest1_spec (comboSums t) (argsort (comboSums t)) (hsort _) hsne x
  have hval : (comboSums t).getD (findNearest1 (comboSums t) (argsort (comboSums t)) x).1 0 = ((row.sum : Int) : Rat) := by
    unfold nearestIndex at hget
    rw [List.getD_eq_getElem?_getD]
    unfold comboSums
    rw [List.getElem?_map]
    show Option.getD (Option.map _ ((cartesian (c.model.map Prod.snd))[_]?)) 0 = _
    unfold comboSums at hget
    rw [hget]; rfl
  rw [n2, hval] at n3
  exact n3 _ (List.mem_map.2 ⟨other, hom, rfl⟩)

/-- C42. A missing reading (NaN) is not left out: it is predicted as a combination with the largest total of all. -/
theorem C42_nan (argsort : List Rat → List Nat) (hsort : ∀ l, IsArgsort l (argsort l)) (h : List CoCall) (c : CO)
    (hc : CO.run argsort CO.init h = c)
    (hm : c.model ≠ []) (hne : ∀ a ∈ c.model, a.2 ≠ []) (hnd : (c.model.map Prod.fst).Nodup)
    (mains : List (List (Option Rat))) :
    ∃ frames, (c.disaggregate argsort mains).2 = .ok frames ∧
      List.Forall₂ (fun test frame => ∀ j : Nat, test[j]? = some none →
          IsChoice (c.model.map Prod.snd) (frame.map (fun col => col.2.getD j 0)) ∧
          ∀ other, IsChoice (c.model.map Prod.snd) other →
            other.sum ≤ (frame.map (fun col => col.2.getD j 0)).sum) mains frames := by
  have hinv : c.Inv := hc ▸ run_inv _ _ _ init_inv
  obtain ⟨frames, h1, h2⟩ := disaggregate_rows argsort hsort c hinv hm hne hnd mains
  refine ⟨frames, h1, h2.imp ?_⟩
  rintro test frame ⟨_, _, k3⟩ j hx
  obtain ⟨row, hrow, hget⟩ := k3 j none hx
  rw [hrow]
  have hmem := List.mem_of_getElem? hget
  refine ⟨(mem_cartesian _ _).1 hmem, ?_⟩
  intro other ho
  have hom := (mem_cartesian _ _).2 ho
  set t : Combinations := ⟨c.model.length, cartesian (c.model.map Prod.snd)⟩ with ht
  obtain ⟨hperm, hs⟩ := hsort (comboSums t)
  set order := argsort (comboSums t) with hord
  have hlen : order.length = (comboSums t).length := by rw [hperm.length_eq, List.length_range]
  have hpos : 0 < (comboSums t).length := by
    simp only [comboSums, ht, List.length_map]
    exact List.length_pos_of_mem hmem
  obtain ⟨k, hk, hko⟩ := List.getElem_of_mem hom
  have hkl : k < (comboSums t).length := by simpa [comboSums, ht] using hk
  have hkm : k ∈ order := hperm.mem_iff.2 (List.mem_range.2 hkl)
  obtain ⟨i, hi, hio⟩ := List.getElem_of_mem hkm
  have hle := pairwise_get _ hs i ((comboSums t).length - 1) (by omega) (by rw [List.length_map]; omega)
  rw [List.getD_eq_getElem _ _ (by rw [List.length_map]; exact hi),
    List.getD_eq_getElem _ _ (by rw [List.length_map]; omega), List.getElem_map, List.getElem_map, hio] at hle
  have hval : ∀ (n : Nat) r, (cartesian (c.model.map Prod.snd))[n]? = some r →
      (comboSums t).getD n 0 = ((r.sum : Int) : Rat) := by
    intro n r hr
    rw [List.getD_eq_getElem?_getD]
    unfold comboSums
    rw [List.getElem?_map]
    show Option.getD (Option.map _ ((cartesian (c.model.map Prod.snd))[_]?)) 0 = _
    rw [hr]; rfl
  rw [hval k other (by rw [List.getElem?_eq_getElem hk, hko])] at hle
  unfold nearestIndex at hget
  rw [List.getD_eq_getElem _ _ (by omega)] at hget
  rw [hval _ row hget] at hle
  exact_mod_cast hle

/-- C42: an appliance given twice in one training call is learnt twice but reported once, so the reported powers need
not be the best combination: here 100 W are explained by the first, and 0 W are reported. -/
theorem C42_duplicate_counterexample :
    ((CO.run argsort CO.init [.fit [("kettle", [0, 100]), ("kettle", [0, 10])]]).disaggregate argsort [[some 100]]).2 =
      .ok [[("kettle", [0])]] := by
  decide +kernel

/-- Trained appliances have distinct names if no training call repeats a name. -/
theorem C43_distinct (argsort : List Rat → List Nat) (h : List CoCall)
    (hd : ∀ as, CoCall.fit as ∈ h → (as.map Prod.fst).Nodup) :
    ((CO.run argsort CO.init h).model.map Prod.fst).Nodup := by
  have key : ∀ (h : List CoCall) (c : CO), c.Inv → (c.model.map Prod.fst).Nodup →
      (∀ as, CoCall.fit as ∈ h → (as.map Prod.fst).Nodup) → ((CO.run argsort c h).model.map Prod.fst).Nodup := by
    intro h
    induction h with
    | nil => intro c _ hc _; exact hc
    | cons a h ih =>
      intro c hi hc hd
      cases a with
      | fit as =>
        refine ih _ (partialFit_inv c hi as) ?_ (fun x hx => hd x (List.mem_cons_of_mem _ hx))
        rw [C43_fit, List.map_append, List.nodup_append]
        refine ⟨hc, ?_, ?_⟩
        · exact List.Nodup.sublist (List.Sublist.map _ List.filter_sublist) (hd as List.mem_cons_self)
        · rintro x hx y hy rfl
          obtain ⟨e, he, rfl⟩ := List.mem_map.1 hy
          have := (List.mem_filter.1 he).2
          simp only [decide_eq_true_eq] at this
          exact this hx
      | disaggregate m =>
        obtain ⟨h1, h2⟩ := disaggregate_inv argsort c hi m
        exact ih _ h1 (h2 ▸ hc) (fun x hx => hd x (List.mem_cons_of_mem _ hx))
  exact key h CO.init init_inv (by simp [CO.init]) hd

/-- Two appliances, one trained after a disaggregation; 60 W is split as 50 + 0 (not 0 + 100). -/
example : ((CO.run argsort CO.init [.fit [("fridge", [0, 50])], .disaggregate [[some 7]],
    .fit [("kettle", [0, 100]), ("fridge", [0, 1])]]).disaggregate argsort [[some 60, none], []]).2 =
      .ok [[("fridge", [50, 50]), ("kettle", [0, 100])], [("fridge", []), ("kettle", [])]] := by
  decide +kernel

/-! ### C62 -/

theorem roundEven_near (x : Rat) : |x - ((roundEven x : Int) : Rat)| ≤ 1 / 2 := by
  have h1 : ((⌊x⌋ : Int) : Rat) ≤ x := Int.floor_le x
  have h2 : x < ((⌊x⌋ : Int) : Rat) + 1 := Int.lt_floor_add_one x
  unfold roundEven
  rw [abs_le]
  split
  · constructor <;> linarith
  · split
    · push_cast; constructor <;> linarith
    · split
      · constructor <;> linarith
      · push_cast; constructor <;> linarith

theorem mem_npUnique (l : List Int) (x : Int) : x ∈ npUnique l ↔ x ∈ l := by
  unfold npUnique
  rw [(List.perm_insertionSort _ _).mem_iff, List.mem_dedup]

theorem npUnique_sorted (l : List Int) : (npUnique l).Pairwise (· < ·) := by
  unfold npUnique
  have h1 := List.pairwise_insertionSort (r := fun a b : Int => a ≤ b) l.dedup
  have h2 : (l.dedup.insertionSort (· ≤ ·)).Nodup := (List.perm_insertionSort _ _).nodup_iff.2 (List.nodup_dedup l)
  exact (h1.and h2).imp (fun h => lt_of_le_of_ne h.1 h.2)

theorem npUnique_length (l : List Int) : (npUnique l).length ≤ l.length := by
  unfold npUnique
  rw [List.length_insertionSort]
  exact (List.dedup_sublist l).length_le

/-- The centres come from one clustering that was computed, or are the single centre 0. -/
theorem applyClusteringLoop_mem (kmeans : Nat → Option (List Rat)) (silhouette : Nat → Option Rat) (ns : List Nat)
    (num : Option Nat) (sh : Rat) (seen : List Nat) (hnum : ∀ n, num = some n → n ∈ seen ∧ (kmeans n).isSome)
    (c : List Rat) (h : applyClusteringLoop kmeans silhouette ns num sh = .ok c) :
    c = [0] ∨ ∃ n ∈ seen ++ ns, kmeans n = some c := by
  induction ns generalizing num sh seen with
  | nil =>
    cases num with
    | none => cases h
    | some n =>
      simp only [applyClusteringLoop] at h
      cases hk : kmeans n with
      | none => rw [hk] at h; cases h
      | some c' => rw [hk] at h; cases h; exact Or.inr ⟨n, by simpa using (hnum n rfl).1, hk⟩
  | cons n ns ih =>
    unfold applyClusteringLoop at h
    have step : ∀ num' sh', (∀ m, num' = some m → m ∈ seen ++ [n] ∧ (kmeans m).isSome) →
        applyClusteringLoop kmeans silhouette ns num' sh' = .ok c → c = [0] ∨ ∃ m ∈ seen ++ n :: ns, kmeans m = some c := by
      intro num' sh' h1 h2
      have := ih num' sh' (seen ++ [n]) h1 h2
      simpa using this
    cases hk : kmeans n with
    | none =>
      rw [hk] at h
      simp only at h
      cases num with
      | none => cases h; exact Or.inl rfl
      | some m =>
        simp only at h
        cases hkm : kmeans m with
        | none => rw [hkm] at h; cases h
        | some c' =>
          rw [hkm] at h; cases h
          exact Or.inr ⟨m, List.mem_append_left _ (hnum m rfl).1, hkm⟩
    | some c' =>
      rw [hk] at h
      simp only at h
      have hnew : ∀ m, some n = some m → m ∈ seen ++ [n] ∧ (kmeans m).isSome := by
        rintro m ⟨⟩; exact ⟨by simp, by rw [hk]; rfl⟩
      have hold : ∀ m, num = some m → m ∈ seen ++ [n] ∧ (kmeans m).isSome :=
        fun m hm => ⟨List.mem_append_left _ (hnum m hm).1, (hnum m hm).2⟩
      cases hs : silhouette n with
      | none => rw [hs] at h; exact step _ _ hnew h
      | some s =>
        rw [hs] at h
        simp only at h
        split at h
        · exact step _ _ hnew h
        · exact step _ _ hold h

/-- C62. The learnt states are ascending without repetitions, contain the off state 0, are at most `max_num_clusters` many,
and correspond to the centres of one of the clusterings with fewer than `max_num_clusters` clusters (or the single
centre 0): every state is 0 or within 1/2 of a centre, and every centre is within 1/2 of a state. -/
theorem C62_states (kmeans : Nat → Option (List Rat)) (hk : ∀ n c, kmeans n = some c → c.length ≤ n)
    (silhouette : Nat → Option Rat) (maxNum : Nat) (hmax : 2 ≤ maxNum) (states : List Int)
    (h : cluster kmeans silhouette maxNum = .ok states) :
    states.Pairwise (· < ·) ∧ 0 ∈ states ∧ states.length ≤ maxNum ∧
    ∃ c, (c = [0] ∨ ∃ n, 1 ≤ n ∧ n < maxNum ∧ kmeans n = some c) ∧
      (∀ s ∈ states, s = 0 ∨ ∃ x ∈ c, |x - (s : Rat)| ≤ 1 / 2) ∧ (∀ x ∈ c, ∃ s ∈ states, |x - (s : Rat)| ≤ 1 / 2) := by
  unfold cluster at h
  cases hc : applyClustering kmeans silhouette maxNum with
  | error e => rw [hc] at h; cases h
  | ok c =>
    rw [hc] at h
    simp only [Except.ok.injEq] at h
    subst h
    have hr : roundEven 0 = 0 := by decide +kernel
    have hmem : ∀ s, s ∈ clusterStates c ↔ s = 0 ∨ ∃ x ∈ c, roundEven x = s := by
      intro s
      unfold clusterStates
      rw [mem_npUnique, List.map_append, List.mem_append, List.mem_map, List.map_cons, List.map_nil, List.mem_singleton,
        hr, or_comm]
    have hfrom : c = [0] ∨ ∃ n, 1 ≤ n ∧ n < maxNum ∧ kmeans n = some c := by
      rcases applyClusteringLoop_mem kmeans silhouette _ none (-1) [] (fun _ h => by cases h) c hc with h | ⟨n, hn, h⟩
      · exact Or.inl h
      · rw [List.nil_append] at hn
        obtain ⟨i, hi, rfl⟩ := List.mem_map.1 hn
        have := List.mem_range.1 hi
        exact Or.inr ⟨i + 1, by omega, by omega, h⟩
    refine ⟨npUnique_sorted _, (hmem 0).2 (Or.inl rfl), ?_, c, hfrom, ?_, ?_⟩
    · have h1 := npUnique_length ((c ++ [0]).map roundEven)
      rw [List.length_map, List.length_append, List.length_singleton] at h1
      have h2 : c.length + 1 ≤ maxNum := by
        rcases hfrom with rfl | ⟨n, h1, h2, h3⟩
        · simpa using hmax
        · have := hk n c h3; omega
      exact le_trans h1 h2
    · intro s hs
      rcases (hmem s).1 hs with h | ⟨x, hx, rfl⟩
      · exact Or.inl h
      · exact Or.inr ⟨x, hx, roundEven_near x⟩
    · intro x hx
      exact ⟨roundEven x, (hmem _).2 (Or.inr ⟨x, hx, rfl⟩), roundEven_near x⟩

/-- The last clustering has been chosen or an earlier one: no `KeyError` once something was chosen. -/
theorem applyClusteringLoop_ok (kmeans : Nat → Option (List Rat)) (silhouette : Nat → Option Rat) (ns : List Nat)
    (m : Nat) (hm : (kmeans m).isSome) (sh : Rat) :
    ∃ c, applyClusteringLoop kmeans silhouette ns (some m) sh = .ok c := by
  induction ns generalizing m sh with
  | nil =>
    obtain ⟨c, hc⟩ := Option.isSome_iff_exists.1 hm
    exact ⟨c, by simp [applyClusteringLoop, hc]⟩
  | cons n ns ih =>
    rw [applyClusteringLoop]
    cases hk : kmeans n with
    | none =>
      obtain ⟨c, hc⟩ := Option.isSome_iff_exists.1 hm
      exact ⟨c, by simp [hc]⟩
    | some c' =>
      simp only
      cases hs : silhouette n with
      | none => exact ih n (by rw [hk]; rfl) sh
      | some s =>
        simp only
        split
        · exact ih n (by rw [hk]; rfl) s
        · exact ih m hm sh

/-- C62. Clustering never raises, whatever k-means does, provided at least one cluster may be used and the silhouette score
raises for a single cluster (it always does: it needs two labels). -/
theorem C62_total (kmeans : Nat → Option (List Rat)) (silhouette : Nat → Option Rat) (h1 : silhouette 1 = none)
    (maxNum : Nat) (hmax : 2 ≤ maxNum) : ∃ states, cluster kmeans silhouette maxNum = .ok states := by
  obtain ⟨n, rfl⟩ : ∃ n, maxNum = n + 2 := ⟨maxNum - 2, by omega⟩
  have hrange : (List.range (n + 2 - 1)).map (fun i : Nat => i + 1) =
      1 :: (List.range n).map (fun i : Nat => i + 2) := by
    rw [show n + 2 - 1 = n + 1 from rfl, List.range_succ_eq_map, List.map_cons, List.map_map]
    rfl
  have : ∃ c, applyClustering kmeans silhouette (n + 2) = .ok c := by
    unfold applyClustering
    rw [hrange, applyClusteringLoop]
    cases hk : kmeans 1 with
    | none => exact ⟨[0], rfl⟩
    | some c =>
      simp only [h1]
      exact applyClusteringLoop_ok kmeans silhouette _ 1 (by rw [hk]; rfl) _
  obtain ⟨c, hc⟩ := this
  exact ⟨clusterStates c, by unfold cluster; rw [hc]⟩

/-- C62. With the default of three clusters (an off state and two others) the number of on-states is decided without
comparing scores: two clusters are used whenever k-means with two clusters succeeds and the score exceeds -1. -/
theorem C62_default_two (kmeans : Nat → Option (List Rat)) (silhouette : Nat → Option Rat) (h1 : silhouette 1 = none)
    (c1 c2 : List Rat) (hk1 : kmeans 1 = some c1) (hk2 : kmeans 2 = some c2) (s : Rat) (hs : silhouette 2 = some s)
    (hgt : -1 < s) : cluster kmeans silhouette 3 = .ok (clusterStates c2) := by
  have : applyClustering kmeans silhouette 3 = .ok c2 := by
    unfold applyClustering
    rw [show (List.range (3 - 1)).map (fun i : Nat => i + 1) = [1, 2] from rfl]
    simp [applyClusteringLoop, hk1, h1, hk2, hs, hgt]
  unfold cluster
  rw [this]

theorem applyClusteringLoop_best (kmeans : Nat → Option (List Rat)) (silhouette : Nat → Option Rat) (ns : List Nat)
    (m : Nat) (cm : List Rat) (hm : kmeans m = some cm) (sh : Rat)
    (hall : ∀ n ∈ ns, (kmeans n).isSome ∧ (silhouette n).isSome) :
    ∃ n c, applyClusteringLoop kmeans silhouette ns (some m) sh = .ok c ∧ kmeans n = some c ∧
      ((n = m ∧ ∀ k ∈ ns, ∀ s, silhouette k = some s → s ≤ sh) ∨
       (n ∈ ns ∧ ∃ s, silhouette n = some s ∧ sh < s ∧ ∀ k ∈ ns, ∀ s', silhouette k = some s' → s' ≤ s)) := by
  induction ns generalizing m cm sh with
  | nil => exact ⟨m, cm, by simp [applyClusteringLoop, hm], hm, Or.inl ⟨rfl, by simp⟩⟩
  | cons a ns ih =>
    obtain ⟨h1, h2⟩ := hall a List.mem_cons_self
    obtain ⟨ca, hca⟩ := Option.isSome_iff_exists.1 h1
    obtain ⟨sa, hsa⟩ := Option.isSome_iff_exists.1 h2
    unfold applyClusteringLoop
    simp only [hca, hsa]
    have hall' : ∀ n ∈ ns, (kmeans n).isSome ∧ (silhouette n).isSome := fun n hn => hall n (List.mem_cons_of_mem _ hn)
    split
    · rename_i hlt
      obtain ⟨n, c, k1, k2, k3⟩ := ih a ca hca sa hall'
      refine ⟨n, c, k1, k2, Or.inr ?_⟩
      rcases k3 with ⟨rfl, k3⟩ | ⟨k3, s, k4, k5, k6⟩
      · refine ⟨List.mem_cons_self, sa, hsa, hlt, ?_⟩
        intro k hk s' hs'
        rcases List.mem_cons.1 hk with rfl | hk
        · rw [hsa] at hs'; cases hs'; exact le_refl _
        · exact k3 k hk s' hs'
      · refine ⟨List.mem_cons_of_mem _ k3, s, k4, lt_trans hlt k5, ?_⟩
        intro k hk s' hs'
        rcases List.mem_cons.1 hk with rfl | hk
        · rw [hsa] at hs'; cases hs'; exact le_of_lt k5
        · exact k6 k hk s' hs'
    · rename_i hlt
      obtain ⟨n, c, k1, k2, k3⟩ := ih m cm hm sh hall'
      refine ⟨n, c, k1, k2, ?_⟩
      rcases k3 with ⟨rfl, k3⟩ | ⟨k3, s, k4, k5, k6⟩
      · refine Or.inl ⟨rfl, ?_⟩
        intro k hk s' hs'
        rcases List.mem_cons.1 hk with rfl | hk
        · rw [hsa] at hs'; cases hs'; exact le_of_not_gt hlt
        · exact k3 k hk s' hs'
      · refine Or.inr ⟨List.mem_cons_of_mem _ k3, s, k4, k5, ?_⟩
        intro k hk s' hs'
        rcases List.mem_cons.1 hk with rfl | hk
        · rw [hsa] at hs'; cases hs'; exact le_trans (le_of_not_gt hlt) (le_of_lt k5)
        · exact k6 k hk s' hs'

/-- C62. If k-means always succeeds and the score is defined from two clusters on and exceeds -1 at two clusters, the
clustering used has the best score of all numbers of clusters from 2 to `max_num_clusters - 1`. -/
theorem C62_best (kmeans : Nat → Option (List Rat)) (silhouette : Nat → Option Rat) (h1 : silhouette 1 = none)
    (maxNum : Nat) (hmax : 3 ≤ maxNum) (hk : ∀ n, 1 ≤ n → n < maxNum → (kmeans n).isSome)
    (hs : ∀ n, 2 ≤ n → n < maxNum → (silhouette n).isSome) (s2 : Rat) (h2 : silhouette 2 = some s2) (hgt : -1 < s2) :
    ∃ n c s, cluster kmeans silhouette maxNum = .ok (clusterStates c) ∧ kmeans n = some c ∧ 2 ≤ n ∧ n < maxNum ∧
      silhouette n = some s ∧ ∀ k s', 2 ≤ k → k < maxNum → silhouette k = some s' → s' ≤ s := by
  obtain ⟨n, rfl⟩ : ∃ n, maxNum = n + 2 := ⟨maxNum - 2, by omega⟩
  have hrange : (List.range (n + 2 - 1)).map (fun i : Nat => i + 1) =
      1 :: (List.range n).map (fun i : Nat => i + 2) := by
    rw [show n + 2 - 1 = n + 1 from rfl, List.range_succ_eq_map, List.map_cons, List.map_map]
    rfl
  have hmem : ∀ k, k ∈ (List.range n).map (fun i : Nat => i + 2) ↔ 2 ≤ k ∧ k < n + 2 := by
    intro k
    rw [List.mem_map]
    constructor
    · rintro ⟨i, hi, rfl⟩
      have := List.mem_range.1 hi
      omega
    · rintro ⟨a, b⟩
      exact ⟨k - 2, List.mem_range.2 (by omega), by omega⟩
  obtain ⟨c1, hc1⟩ := Option.isSome_iff_exists.1 (hk 1 (le_refl _) (by omega))
  obtain ⟨m, c, k1, k2, k3⟩ := applyClusteringLoop_best kmeans silhouette ((List.range n).map (fun i : Nat => i + 2)) 1 c1 hc1
    (-1) (by
      intro k hk'
      obtain ⟨a, b⟩ := (hmem k).1 hk'
      exact ⟨hk k (by omega) b, hs k a b⟩)
  have hcl : cluster kmeans silhouette (n + 2) = .ok (clusterStates c) := by
    unfold cluster applyClustering
    rw [hrange]
    unfold applyClusteringLoop
    simp only [hc1, h1, k1]
  rcases k3 with ⟨rfl, k3⟩ | ⟨k3, s, k4, k5, k6⟩
  · exact absurd (k3 2 ((hmem 2).2 (by omega)) s2 h2) (not_le.2 hgt)
  · obtain ⟨a, b⟩ := (hmem m).1 k3
    exact ⟨m, c, s, hcl, k2, a, b, k4, fun k s' ha hb hs' => k6 k ((hmem k).2 ⟨ha, hb⟩) s' hs'⟩

/-- Two centres at 50.5 and 1000.2. -/
example : cluster (fun n => if n = 1 then some [525] else if n = 2 then some [101/2, 5001/5] else none)
    (fun n => if n = 2 then some (9/10) else none) 3 = .ok [0, 50, 1000] := by decide +kernel

end Nilmtk
