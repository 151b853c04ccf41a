import Verif.Model.Proportion
import Verif.Props.Wiring
import Verif.Props.Measurement
import Mathlib.Algebra.Order.BigOperators.Group.List
/-!
C79: the energy of a group and proportions of energy.
-/
namespace Nilmtk

/-! ### Specification -/

/-- The meter measured energy `x` of AC type `k`. -/
def Measured (s : EnergySeries) (k : String) (x : Rat) : Prop := s.lookup k = some (some x)

/-- The AC types of a meter. -/
def types (s : EnergySeries) : List String := s.map Prod.fst

/-! ### The energy of a group -/

theorem energyIadd_types (a b : EnergySeries) : types (energyIadd a b) = types a := by
  simp [types, energyIadd, Function.comp_def]

theorem lookup_map_val {β γ : Type} (l : List (String × β)) (f : String → β → γ) (k : String) :
    (l.map (fun p => (p.1, f p.1 p.2))).lookup k = (l.lookup k).map (f k) := by
  induction l with
  | nil => rfl
  | cons p l ih =>
    obtain ⟨a, b⟩ := p
    simp only [List.map_cons, List.lookup_cons]
    by_cases h : k = a
    · subst h; simp
    · have : (k == a) = false := by simpa using h
      rw [this]
      exact ih

theorem energyIadd_measured (a b : EnergySeries) (k : String) (z : Rat) :
    Measured (energyIadd a b) k z ↔ ∃ x y, Measured a k x ∧ Measured b k y ∧ z = x + y := by
  unfold Measured energyIadd
  rw [lookup_map_val a (fun k v => energyPlus v ((b.lookup k).getD none))]
  cases ha : a.lookup k with
  | none => simp
  | some v =>
    cases v with
    | none => simp [energyPlus]
    | some x =>
      cases hb : b.lookup k with
      | none => simp [energyPlus]
      | some w =>
        cases w with
        | none => simp [energyPlus]
        | some y =>
          simp only [Option.map_some, Option.getD_some, energyPlus, Option.some.injEq]
          constructor
          · rintro rfl; exact ⟨x, y, rfl, rfl, rfl⟩
          · rintro ⟨x', y', rfl, rfl, rfl⟩; rfl

/-- C79. The energy of a group has the AC types of its first meter. For each of them it is the sum of the energies of all
meters when all have measured it, and NaN otherwise. -/
theorem C79_group (s : EnergySeries) (ss : List EnergySeries) :
    ∃ r, groupEnergy (s :: ss) = some r ∧ types r = types s ∧
      ∀ k z, Measured r k z ↔ ∃ xs, List.Forall₂ (fun t x => Measured t k x) (s :: ss) xs ∧ z = xs.sum := by
  refine ⟨_, rfl, ?_⟩
  induction ss generalizing s with
  | nil =>
    refine ⟨rfl, fun k z => ?_⟩
    rw [List.foldl_nil]
    constructor
    · intro h; exact ⟨[z], .cons h .nil, by simp⟩
    · rintro ⟨xs, h, rfl⟩
      cases h with
      | cons h1 h2 => cases h2; simpa using h1
  | cons t ss ih =>
    obtain ⟨h1, h2⟩ := ih (energyIadd s t)
    rw [List.foldl_cons]
    refine ⟨h1.trans (energyIadd_types s t), fun k z => ?_⟩
    rw [h2]
    constructor
    · rintro ⟨xs, h, rfl⟩
      cases h with
      | cons h1 h2 =>
        obtain ⟨x, y, hx, hy, rfl⟩ := (energyIadd_measured s t k _).1 h1
        exact ⟨_, .cons hx (.cons hy h2), by simp [add_assoc]⟩
    · rintro ⟨xs, h, rfl⟩
      cases h with
      | cons h1 h2 =>
        cases h2 with
        | cons h2 h3 =>
          exact ⟨_, .cons ((energyIadd_measured s t k _).2 ⟨_, _, h1, h2, rfl⟩) h3, by simp [add_assoc]⟩

theorem forall2_of_measured (l : List EnergySeries) (k : String) (e : EnergySeries → Rat)
    (h : ∀ s ∈ l, Measured s k (e s)) : List.Forall₂ (fun t x => Measured t k x) l (l.map e) := by
  induction l with
  | nil => exact .nil
  | cons s l ih => exact .cons (h s List.mem_cons_self) (ih (fun t ht => h t (List.mem_cons_of_mem _ ht)))

/-- C79. When every meter measured AC type `k`, the energy of the group is their sum, in whatever order the meters are
listed. Missing: groups whose meters measure different AC types, see the counterexample. -/
theorem C79_group_sum_partial (l l' : List EnergySeries) (k : String) (e : EnergySeries → Rat) (hne : l ≠ [])
    (h : ∀ s ∈ l, Measured s k (e s)) (hp : l.Perm l') :
    ∃ r r', groupEnergy l = some r ∧ groupEnergy l' = some r' ∧ Measured r k ((l.map e).sum) ∧
      Measured r' k ((l.map e).sum) := by
  have key : ∀ m : List EnergySeries, m ≠ [] → (∀ s ∈ m, Measured s k (e s)) →
      ∃ r, groupEnergy m = some r ∧ Measured r k ((m.map e).sum) := by
    intro m hm hall
    cases m with
    | nil => exact absurd rfl hm
    | cons s ss =>
      obtain ⟨r, h1, _, h3⟩ := C79_group s ss
      exact ⟨r, h1, (h3 k _).2 ⟨_, forall2_of_measured _ k e hall, rfl⟩⟩
  obtain ⟨r, h1, h2⟩ := key l hne h
  obtain ⟨r', h3, h4⟩ := key l' (by rintro rfl; exact hne hp.eq_nil) (fun s hs => h s (hp.mem_iff.2 hs))
  refine ⟨r, r', h1, h3, h2, ?_⟩
  rw [(hp.map e).sum_eq]
  exact h4

/-! ### The proportion of energy of one meter in another -/

theorem sharedTypes_mem (self other : EnergySeries) (k : String) :
    k ∈ sharedTypes self other ↔ k ∈ types self ∧ k ∈ types other := by
  simp only [sharedTypes, types, List.mem_filter, decide_eq_true_eq]
  exact and_comm

theorem foldl_num_add (l : List Rat) (a : Rat) : (l.map FVal.num).foldl FVal.add (.num a) = .num (a + l.sum) := by
  induction l generalizing a with
  | nil => simp
  | cons x l ih =>
    rw [List.map_cons, List.foldl_cons]
    show List.foldl FVal.add (.num (a + x)) _ = _
    rw [ih, List.sum_cons, add_assoc]

theorem fmean_num (l : List Rat) (h : l ≠ []) : fmean (l.map FVal.num) = .num (l.sum / l.length) := by
  unfold fmean
  have : (l.map FVal.num).filter (fun v => decide (v ≠ .nan)) = l.map FVal.num := by
    rw [List.filter_eq_self]
    intro v hv
    rw [List.mem_map] at hv
    obtain ⟨x, _, rfl⟩ := hv
    simp
  rw [this]
  cases l with
  | nil => exact absurd rfl h
  | cons x l =>
    show ((List.map FVal.num (x :: l)).foldl FVal.add (.num 0)).over (List.map FVal.num (x :: l)).length = _
    rw [foldl_num_add, List.length_map, zero_add]
    rfl

/-- C79. When the meters share an AC type and the other measured some of each shared one, the proportion is the mean of the
quotients over the shared AC types. -/
theorem C79_proportion (self other : EnergySeries) (x y : String → Rat) (hsum : energySum other ≠ 0)
    (hshare : ∃ k, k ∈ types self ∧ k ∈ types other)
    (hx : ∀ k, k ∈ types self → k ∈ types other → Measured self k (x k) ∧ Measured other k (y k) ∧ y k ≠ 0) :
    proportionOfEnergy self other = .ok (.num (((sharedTypes self other).map (fun k => x k / y k)).sum /
      ((sharedTypes self other).length : Nat))) := by
  have hm : ∀ k ∈ sharedTypes self other, Measured self k (x k) ∧ Measured other k (y k) ∧ y k ≠ 0 := by
    intro k hk
    rw [sharedTypes_mem] at hk
    exact hx k hk.1 hk.2
  have hne : sharedTypes self other ≠ [] := by
    obtain ⟨k, hk⟩ := hshare
    rw [← sharedTypes_mem] at hk
    exact List.ne_nil_of_mem hk
  have hself : self ≠ [] := by
    rintro rfl
    obtain ⟨k, hk, _⟩ := hshare
    cases hk
  unfold proportionOfEnergy
  rw [if_neg hsum, if_neg hself]
  generalize hL : sharedTypes self other = L at hm hne
  split
  · congr 1
    rw [← List.length_map (f := fun k => x k / y k) (as := L), ← fmean_num _ (by simpa using hne), List.map_map]
    congr 1
    apply List.map_congr_left
    intro k hk
    obtain ⟨h1, h2, h3⟩ := hm k hk
    unfold Measured at h1 h2
    simp [h1, h2, divNan, fdiv, h3]
  · rename_i hlen
    match L with
    | [] => exact absurd rfl hne
    | k :: k' :: l => simp at hlen
    | [k] =>
      obtain ⟨h1, h2, h3⟩ := hm k List.mem_cons_self
      unfold Measured at h1 h2
      simp [acPair, energyRatio, energyAt, h1, h2, divNan, fdiv, h3]

/-- The quotient of the energies of AC type `k`: a number, or NaN when one of the energies is NaN or both are zero. -/
def QuotientAt (self other : EnergySeries) (k : String) : Option Rat → Prop
  | some z => ∃ x y, Measured self k x ∧ Measured other k y ∧ y ≠ 0 ∧ z = x / y
  | none => (k ∈ types self ∧ k ∈ types other ∧ (self.lookup k = some none ∨ other.lookup k = some none)) ∨
      (Measured self k 0 ∧ Measured other k 0)

/-- The float for a number or NaN. -/
def toFVal : Option Rat → FVal Rat
  | none => .nan
  | some x => .num x

theorem quotientAt_div (self other : EnergySeries) (k : String) (q : Option Rat) (h : QuotientAt self other k q) :
    divNan ((self.lookup k).getD none) ((other.lookup k).getD none) = toFVal q := by
  cases q with
  | some z =>
    obtain ⟨x, y, h1, h2, h3, rfl⟩ := h
    unfold Measured at h1 h2
    simp [h1, h2, divNan, fdiv, h3, toFVal]
  | none =>
    rcases h with ⟨_, _, h | h⟩ | ⟨h1, h2⟩
    · rw [h]; rfl
    · rw [h]
      cases (self.lookup k).getD none <;> rfl
    · unfold Measured at h1 h2
      simp [h1, h2, divNan, fdiv, toFVal]

theorem fmean_toFVal (l : List (Option Rat)) :
    fmean (l.map toFVal) = (match l.filterMap id with
      | [] => .nan
      | ns => .num (ns.sum / (ns.length : Nat))) := by
  have h : (l.map toFVal).filter (fun v => decide (v ≠ .nan)) = (l.filterMap id).map FVal.num := by
    induction l with
    | nil => rfl
    | cons a l ih =>
      cases a with
      | none => simpa [toFVal] using ih
      | some x => simpa [toFVal] using ih
  unfold fmean
  rw [h]
  cases l.filterMap id with
  | nil => rfl
  | cons x ns =>
    show ((List.map FVal.num (x :: ns)).foldl FVal.add (.num 0)).over (List.map FVal.num (x :: ns)).length = _
    rw [foldl_num_add, List.length_map, zero_add]
    rfl

theorem lookup_of_types (s : EnergySeries) (k : String) (h : k ∈ types s) : ∃ v, s.lookup k = some v := by
  cases hl : s.lookup k with
  | some v => exact ⟨v, rfl⟩
  | none =>
    rw [List.lookup_eq_none_iff] at hl
    unfold types at h
    rw [List.mem_map] at h
    obtain ⟨p, hp, rfl⟩ := h
    simpa using hl p hp

/-- C79. In general, AC types for which the quotient is NaN are left out of the mean; NaN when none is left. -/
theorem C79_proportion_nan (self other : EnergySeries) (q : String → Option Rat) (hsum : energySum other ≠ 0)
    (hshare : ∃ k, k ∈ types self ∧ k ∈ types other)
    (hq : ∀ k, k ∈ types self → k ∈ types other → QuotientAt self other k (q k)) :
    proportionOfEnergy self other = .ok (match (sharedTypes self other).filterMap q with
      | [] => .nan
      | ns => .num (ns.sum / (ns.length : Nat))) := by
  have hm : ∀ k ∈ sharedTypes self other, (k ∈ types self ∧ k ∈ types other) ∧ QuotientAt self other k (q k) := by
    intro k hk
    rw [sharedTypes_mem] at hk
    exact ⟨hk, hq k hk.1 hk.2⟩
  have hne : sharedTypes self other ≠ [] := by
    obtain ⟨k, hk⟩ := hshare
    rw [← sharedTypes_mem] at hk
    exact List.ne_nil_of_mem hk
  have hself : self ≠ [] := by
    rintro rfl
    obtain ⟨k, hk, _⟩ := hshare
    cases hk
  unfold proportionOfEnergy
  rw [if_neg hsum, if_neg hself]
  generalize hL : sharedTypes self other = L at hm hne
  split
  · congr 1
    have h1 : L.map (fun k => divNan ((self.lookup k).getD none) ((other.lookup k).getD none)) =
        (L.map q).map toFVal := by
      rw [List.map_map]
      apply List.map_congr_left
      intro k hk
      exact quotientAt_div self other k _ (hm k hk).2
    rw [h1, fmean_toFVal, List.filterMap_map]
    rfl
  · rename_i hlen
    match L with
    | [] => exact absurd rfl hne
    | k :: k' :: l => simp at hlen
    | [k] =>
      obtain ⟨⟨h1, h2⟩, h3⟩ := hm k List.mem_cons_self
      obtain ⟨v, hv⟩ := lookup_of_types self k h1
      obtain ⟨w, hw⟩ := lookup_of_types other k h2
      have := quotientAt_div self other k _ h3
      rw [hv, hw] at this
      simp only [acPair, energyRatio, energyAt, hv, hw]
      simp only [Option.getD_some] at this
      rw [this]
      cases hqk : q k with
      | none => simp [hqk, toFVal]
      | some z => simp [hqk, toFVal]

/-- C79. The proportion lies between 0 and 1 when the meter used no more than the other of each shared AC type. -/
theorem C79_range (self other : EnergySeries) (hsum : energySum other ≠ 0)
    (hshare : ∃ k, k ∈ types self ∧ k ∈ types other)
    (hx : ∀ k, k ∈ types self → k ∈ types other →
      ∃ x y, Measured self k x ∧ Measured other k y ∧ 0 ≤ x ∧ x ≤ y ∧ 0 < y) :
    ∃ p, proportionOfEnergy self other = .ok (.num p) ∧ 0 ≤ p ∧ p ≤ 1 := by
  classical
  have hx' : ∀ k, ∃ q : Rat × Rat, k ∈ types self → k ∈ types other →
      Measured self k q.1 ∧ Measured other k q.2 ∧ 0 ≤ q.1 ∧ q.1 ≤ q.2 ∧ 0 < q.2 := by
    intro k
    by_cases h : k ∈ types self ∧ k ∈ types other
    · obtain ⟨x, y, h⟩ := hx k h.1 h.2
      exact ⟨(x, y), fun _ _ => h⟩
    · exact ⟨(0, 0), fun h1 h2 => absurd ⟨h1, h2⟩ h⟩
  obtain ⟨q, hq⟩ := Classical.axiomOfChoice hx'
  refine ⟨_, C79_proportion self other (fun k => (q k).1) (fun k => (q k).2) hsum hshare
    (fun k h1 h2 => ⟨(hq k h1 h2).1, (hq k h1 h2).2.1, ne_of_gt (hq k h1 h2).2.2.2.2⟩), ?_, ?_⟩
  · apply div_nonneg _ (by positivity)
    apply List.sum_nonneg
    intro z hz
    rw [List.mem_map] at hz
    obtain ⟨k, hk, rfl⟩ := hz
    rw [sharedTypes_mem] at hk
    obtain ⟨_, _, h1, h2, h3⟩ := hq k hk.1 hk.2
    exact div_nonneg h1 h3.le
  · have hle : ((sharedTypes self other).map (fun k => (q k).1 / (q k).2)).sum ≤
        ((sharedTypes self other).length : Rat) := by
      have : ∀ z ∈ (sharedTypes self other).map (fun k => (q k).1 / (q k).2), z ≤ 1 := by
        intro z hz
        rw [List.mem_map] at hz
        obtain ⟨k, hk, rfl⟩ := hz
        rw [sharedTypes_mem] at hk
        obtain ⟨_, _, h1, h2, h3⟩ := hq k hk.1 hk.2
        exact (div_le_one h3).2 h2
      have := List.sum_le_card_nsmul _ _ this
      simpa using this
    apply div_le_one_of_le₀ hle (by positivity)

/-- C79. A meter that used the fraction `c` of the other, of each shared AC type, has proportion `c`. -/
theorem C79_exact (self other : EnergySeries) (c : Rat) (y : String → Rat) (hsum : energySum other ≠ 0)
    (hshare : ∃ k, k ∈ types self ∧ k ∈ types other)
    (hx : ∀ k, k ∈ types self → k ∈ types other → Measured self k (c * y k) ∧ Measured other k (y k) ∧ y k ≠ 0) :
    proportionOfEnergy self other = .ok (.num c) := by
  rw [C79_proportion self other (fun k => c * y k) y hsum hshare hx]
  have : (sharedTypes self other).map (fun k => c * y k / y k) = (sharedTypes self other).map (fun _ => c) := by
    apply List.map_congr_left
    intro k hk
    rw [sharedTypes_mem] at hk
    have := (hx k hk.1 hk.2).2.2
    field_simp
  rw [this, List.map_const', List.sum_replicate, nsmul_eq_mul]
  have : ((sharedTypes self other).length : Rat) ≠ 0 := by
    obtain ⟨k, hk⟩ := hshare
    rw [← sharedTypes_mem] at hk
    have := List.length_pos_of_mem hk
    exact_mod_cast (by omega : (sharedTypes self other).length ≠ 0)
  congr 2
  field_simp

/-- C79. NaN when the energies of the other add up to zero; 0 when the meter has no energy at all. -/
theorem C79_nothing (self other : EnergySeries) :
    (energySum other = 0 → proportionOfEnergy self other = .ok .nan) ∧
      (energySum other ≠ 0 → proportionOfEnergy [] other = .ok (.num 0)) := by
  refine ⟨fun h => by simp [proportionOfEnergy, h], fun h => by simp [proportionOfEnergy, h]⟩

/-- C79. Without a shared AC type, the best AC type of each is used. -/
theorem C79_unshared (self other : EnergySeries) (a b : String) (w w' : Bool) (x y : Rat) (hsum : energySum other ≠ 0)
    (hno : ∀ k, k ∈ types self → k ∉ types other) (ha : selectBestAcType (types self) none = .ok (a, w))
    (hb : selectBestAcType (types other) none = .ok (b, w')) (hx : Measured self a x) (hy : Measured other b y)
    (h0 : y ≠ 0) : proportionOfEnergy self other = .ok (.num (x / y)) := by
  have hself : self ≠ [] := by
    rintro rfl
    cases hx
  have hL : sharedTypes self other = [] := by
    rw [List.eq_nil_iff_forall_not_mem]
    intro k hk
    rw [sharedTypes_mem] at hk
    exact hno k hk.1 hk.2
  unfold Measured at hx hy
  unfold types at ha hb
  unfold proportionOfEnergy
  rw [if_neg hsum, if_neg hself, hL]
  simp [acPair, ha, hb, energyRatio, energyAt, hx, hy, divNan, fdiv, h0]

/-! ### The proportion of energy that is submetered -/

theorem submeteredLoop_sum (prop : WNode → Except Err (FVal Rat)) (f : WNode → Option Rat) (l : List WNode) (a : Rat)
    (b : Bool) (h : ∀ n ∈ l, prop n = .ok (toFVal (f n))) :
    submeteredLoop prop (.num a) b l =
      .ok (.num (a + (l.filterMap f).sum), b && decide (∀ n ∈ l, f n = none)) := by
  induction l generalizing a b with
  | nil => simp [submeteredLoop]
  | cons n l ih =>
    rw [submeteredLoop, h n List.mem_cons_self]
    have hl := fun m hm => h m (List.mem_cons_of_mem _ hm)
    cases hf : f n with
    | none =>
      simp only [toFVal]
      rw [ih a b hl]
      simp [hf]
    | some x =>
      simp only [toFVal]
      show submeteredLoop prop (.num (a + x)) false l = _
      rw [ih (a + x) false hl]
      simp [hf, add_assoc]

/-- C79. The proportion that is submetered is the sum of the proportions, in the mains, of the meters directly downstream of
the mains, leaving out the ones that are NaN; NaN when all are. -/
theorem C79_submetered (glob : List Elec) (W : MeterId → Wire) (energy : WNode → EnergySeries)
    (mainsEnergy : Meter → EnergySeries) (ms : List Meter) (m : Meter) (l : List WNode) (f : WNode → Option Rat)
    (hm : mains ms = .ok (some m)) (hl : directlyDownstream glob W ms = .ok l)
    (hf : ∀ n ∈ l, proportionOfEnergy (energy n) (mainsEnergy m) = .ok (toFVal (f n))) :
    proportionSubmetered glob W energy mainsEnergy ms =
      .ok (if ∀ n ∈ l, f n = none then .nan else .num ((l.filterMap f).sum)) := by
  unfold proportionSubmetered
  rw [hm, hl]
  simp only [Option.map_some]
  rw [submeteredLoop_sum (fun n => proportionOfMains (energy n) (some (mainsEnergy m))) f l 0 true hf]
  simp

/-- C79. When the mains and the meters directly downstream measured the one AC type `k`, the proportion is the sum of the
energies of these meters over the energy of the mains. -/
theorem C79_submetered_energy (glob : List Elec) (W : MeterId → Wire) (energy : WNode → EnergySeries)
    (mainsEnergy : Meter → EnergySeries) (ms : List Meter) (m : Meter) (l : List WNode) (k : String) (e : WNode → Rat)
    (E : Rat) (hm : mains ms = .ok (some m)) (hl : directlyDownstream glob W ms = .ok l) (hne : l ≠ [])
    (hE : mainsEnergy m = [(k, some E)]) (hE0 : E ≠ 0) (he : ∀ n ∈ l, energy n = [(k, some (e n))]) :
    proportionSubmetered glob W energy mainsEnergy ms = .ok (.num ((l.map e).sum / E)) := by
  have hp : ∀ n ∈ l, proportionOfEnergy (energy n) (mainsEnergy m) = .ok (toFVal (some (e n / E))) := by
    intro n hn
    rw [he n hn, hE]
    have hsum : energySum [(k, some E)] ≠ 0 := by simpa [energySum] using hE0
    rw [C79_proportion [(k, some (e n))] [(k, some E)] (fun _ => e n) (fun _ => E) hsum ⟨k, by simp [types]⟩ ?_]
    · simp [sharedTypes, toFVal]
    · intro k' h1 _
      simp only [types, List.map_cons, List.map_nil, List.mem_singleton] at h1
      subst h1
      simp [Measured, hE0]
  rw [C79_submetered glob W energy mainsEnergy ms m l (fun n => some (e n / E)) hm hl hp]
  have : ¬ ∀ n ∈ l, (fun n => some (e n / E)) n = none := by
    intro h
    obtain ⟨n, hn⟩ := List.exists_mem_of_ne_nil l hne
    cases h n hn
  rw [if_neg this]
  congr 2
  have hfm : l.filterMap (fun n => some (e n / E)) = l.map (fun n => e n / E) := by
    rw [← List.filterMap_eq_map]; rfl
  rw [hfm]
  clear hne hl he hp this hfm
  induction l with
  | nil => simp
  | cons n l ih => simp only [List.map_cons, List.sum_cons, ih, add_div]

/-- C79. Without mains in the group, and with mains known to the submeters, `AttributeError`. -/
theorem C79_no_mains (glob : List Elec) (W : MeterId → Wire) (energy : WNode → EnergySeries)
    (mainsEnergy : Meter → EnergySeries) (ms : List Meter) (n : WNode) (l : List WNode)
    (hm : mains ms = .ok none) (hl : directlyDownstream glob W ms = .ok (n :: l)) :
    proportionSubmetered glob W energy mainsEnergy ms = .error .attributeError := by
  unfold proportionSubmetered
  rw [hm, hl]
  rfl

/-! ### The proportion of the upstream meter -/

theorem seriesDiv_keys (a b : EnergySeries) (k : String) :
    k ∈ (seriesDiv a b).map Prod.fst ↔ k ∈ types a ∨ k ∈ types b := by
  simp only [seriesDiv, List.map_map, List.mem_map, List.mem_append, List.mem_filter, Function.comp_apply, types,
    decide_eq_true_eq, exists_eq_right]
  constructor
  · rintro (h | ⟨h, _⟩)
    · exact .inl h
    · exact .inr h
  · rintro (h | h)
    · exact .inl h
    · by_cases h' : ∃ a_1, a_1 ∈ a ∧ a_1.1 = k
      · exact .inl h'
      · exact .inr ⟨h, h'⟩

theorem lookup_map_key {β : Type} (l : List String) (f : String → β) (k : String) (h : k ∈ l) :
    (l.map (fun k => (k, f k))).lookup k = some (f k) := by
  induction l with
  | nil => cases h
  | cons a l ih =>
    rw [List.map_cons, List.lookup_cons]
    by_cases hk : k = a
    · subst hk; simp
    · have : (k == a) = false := by simpa using hk
      rw [this]
      exact ih ((List.mem_cons.1 h).resolve_left hk)

/-- `find?` only depends on the members. -/
theorem selectBest_congr (a b : List String) (h : ∀ k, k ∈ a ↔ k ∈ b) :
    selectBestAcType a none = selectBestAcType b none := by
  unfold selectBestAcType selectBestAvailable
  have : (fun t => decide (t ∈ a)) = fun t => decide (t ∈ b) := by
    funext t; simp [h]
  rw [this]

/-- C79. When both meters measured the same AC types, `proportion_of_upstream` is the quotient for the best one. Missing: an
upstream meter that also measured a better AC type, see the counterexample. -/
theorem C79_upstream_partial (self upstream : EnergySeries) (k : String) (w : Bool) (x y : Rat)
    (hsame : ∀ t, t ∈ types self ↔ t ∈ types upstream) (hk : selectBestAcType (types self) none = .ok (k, w))
    (hx : Measured self k x) (hy : Measured upstream k y) (h0 : y ≠ 0) :
    proportionOfUpstream self upstream = .ok (.num (x / y)) := by
  have hbest : selectBestAcType ((seriesDiv self upstream).map Prod.fst) none = .ok (k, w) := by
    rw [← hk]
    apply selectBest_congr
    intro t
    rw [seriesDiv_keys, ← hsame, or_self]
  have hmem : k ∈ types self := by
    by_contra hno
    have : self.lookup k = none := by
      rw [List.lookup_eq_none_iff]
      intro p hp
      by_contra hcon
      have hkp : k = p.1 := by simpa using hcon
      subst hkp
      exact hno (List.mem_map.2 ⟨p, hp, rfl⟩)
    unfold Measured at hx
    rw [this] at hx
    cases hx
  unfold proportionOfUpstream
  simp only
  rw [hbest]
  simp only
  have hlook : (seriesDiv self upstream).lookup k = some (.num (x / y)) := by
    unfold seriesDiv
    unfold types at hmem
    rw [lookup_map_key _ _ k (List.mem_append_left _ hmem)]
    unfold Measured at hx hy
    simp [hx, hy, divNan, fdiv, h0]
  rw [hlook]

/-! ### The average energy per period -/

/-- C79. The average energy per period is the energy times the length of a period over the uptime, for each AC type; NaN
without uptime; `sections` are refused. -/
theorem C79_average (td period : Int) (energy : EnergySeries) (hp : period ≠ 0) :
    averageEnergy true td period energy = .error .runtimeError ∧
    averageEnergy false 0 period energy = .ok none ∧
    (td ≠ 0 → ∃ r, averageEnergy false td period energy = .ok (some r) ∧ r.map Prod.fst = types energy ∧
      ∀ k x, Measured energy k x → r.lookup k = some (.num (x * period / td))) := by
  refine ⟨rfl, rfl, fun ht => ?_⟩
  unfold averageEnergy
  simp only [Bool.false_eq_true, if_false, if_neg ht]
  refine ⟨_, rfl, by simp [types, Function.comp_def], ?_⟩
  intro k x hx
  rw [lookup_map_val energy (fun _ v => divNan v (some ((td : Rat) / 1000000000 / ((period : Rat) / 1000000000))))]
  unfold Measured at hx
  rw [hx]
  have h1 : (td : Rat) ≠ 0 := by exact_mod_cast ht
  have h2 : (period : Rat) ≠ 0 := by exact_mod_cast hp
  have h3 : (td : Rat) / 1000000000 / ((period : Rat) / 1000000000) ≠ 0 := by positivity
  simp only [Option.map_some, divNan, fdiv, if_neg h3, Option.some.injEq, FVal.num.injEq]
  field_simp

/-! ### Examples and counterexamples -/

example : groupEnergy [[("active", some 2), ("apparent", some 3)], [("apparent", some 4), ("active", some 5)]] =
    some [("active", some 7), ("apparent", some 7)] := by decide +kernel
example : proportionOfEnergy [("active", some 1), ("apparent", some 3)] [("active", some 4), ("apparent", some 4)] =
    .ok (.num (1 / 2)) := by decide +kernel
example : proportionOfEnergy [("active", none), ("apparent", some 3), ("reactive", some 0)]
    [("active", some 4), ("apparent", some 4), ("reactive", some 0)] = .ok (.num (3 / 4)) := by decide +kernel
example : proportionOfEnergy [("apparent", some 1)] [("active", some 4)] = .ok (.num (1 / 4)) := by decide +kernel
example : proportionOfUpstream [("apparent", some 1)] [("apparent", some 4)] = .ok (.num (1 / 4)) := by decide +kernel
example : averageEnergy false (2 * 86400000000000) 86400000000000 [("active", some 10)] =
    .ok (some [("active", .num 5)]) := by decide +kernel
example : proportionSubmetered [wMeter 1 true, wMeter 2 false, wMeter 3 false] wWires
    (fun _ => [("active", some 1)]) (fun _ => [("active", some 4)])
    [.elec (wMeter 1 true), .elec (wMeter 2 false), .elec (wMeter 3 false)] = .ok (.num (1 / 2)) := by decide +kernel

/-- Meters with different AC types: energy measured by the first alone becomes NaN, energy measured by the second alone is
lost, and the result depends on the order of the meters. -/
theorem C79_group_counterexample :
    groupEnergy [[("active", some 2)], [("apparent", some 3)]] = some [("active", none)] ∧
    groupEnergy [[("apparent", some 3)], [("active", some 2)]] = some [("apparent", none)] := by
  decide +kernel

/-- Without a shared AC type, a meter can use more than the whole; and energies of different AC types that cancel give NaN. -/
theorem C79_range_counterexample :
    proportionOfEnergy [("apparent", some 5)] [("active", some 4)] = .ok (.num (5 / 4)) ∧
    proportionOfEnergy [("active", some 1)] [("active", some 4), ("reactive", some (-4))] = .ok .nan := by
  decide +kernel

/-- `proportion_of_upstream` is NaN when the upstream meter has a better AC type that the meter lacks, although the meters
share one and `proportion_of_energy` finds it. -/
theorem C79_upstream_counterexample :
    proportionOfUpstream [("apparent", some 1)] [("active", some 3), ("apparent", some 4)] = .ok .nan ∧
    proportionOfEnergy [("apparent", some 1)] [("active", some 3), ("apparent", some 4)] = .ok (.num (1 / 4)) := by
  decide +kernel

end Nilmtk
