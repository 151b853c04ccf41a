import Verif.Model.GroupStats
import Verif.Props.Proportion
import Verif.Props.Group
import Verif.Props.Experiment
import Verif.Props.Dropout
/-!
C86: statistics collected over the meters of a group.
-/
namespace Nilmtk

/-! ### Specification -/

/-- The cell of the frame in column number `i` and row `k`. -/
def IsCell (t : EnergyTable) (i : Nat) (k : String) (v : FVal Rat) : Prop :=
  ∃ id col, t[i]? = some (id, col) ∧ (acTypeNames.zip col).lookup k = some v

/-- What a cell has to hold for a meter with energies `s`: the energy of that AC type if the meter measured it, else NaN. -/
def CellOf (s : Option EnergySeries) (k : String) (v : FVal Rat) : Prop :=
  (∀ e x, s = some e → Measured e k x → v = .num x) ∧ ((∀ e x, s = some e → ¬ Measured e k x) → v = .nan)

/-- The same for the energies per period. -/
def PeriodCellOf (s : Option (List (String × FVal Rat))) (k : String) (v : FVal Rat) : Prop :=
  (∀ e x, s = some e → e.lookup k = some x → v = x) ∧ ((∀ e, s = some e → e.lookup k = none) → v = .nan)

/-- The rate as a number. -/
def IsRate (m : DMeter) (r : Rat) : Prop := m.rate = .ok (some r)

/-- The whole of `p` lies within sections of `g`. -/
def CoveredBy (g : List TF) (p : Int) : Prop :=
  ∃ f ∈ g, ∃ a b, f.start = some a ∧ f.stop = some b ∧ a ≤ p ∧ p < b

/-! ### Filling a table -/

theorem setNamed_keys {β : Type} (t : List (Ident × β)) (id : Ident) (v : β) :
    (setNamed t id v).map Prod.fst = t.map Prod.fst := by
  induction t with
  | nil => rfl
  | cons c t ih =>
    simp only [setNamed, List.map_cons, List.cons.injEq]
    refine ⟨by split <;> rfl, ?_⟩
    simpa [setNamed] using ih

theorem setNamed_get {β : Type} (t : List (Ident × β)) (id : Ident) (v : β) (i : Nat) (k : Ident) (w : β)
    (h : t[i]? = some (k, w)) :
    (k = id → (setNamed t id v)[i]? = some (k, v)) ∧ (k ≠ id → (setNamed t id v)[i]? = some (k, w)) := by
  constructor
  · rintro rfl
    simp [setNamed, h, (Ident.beq_iff k k).2 rfl]
  · intro hk
    have : Ident.beq k id = false := by
      cases hb : Ident.beq k id with
      | false => rfl
      | true => exact absurd ((Ident.beq_iff _ _).1 hb) hk
    simp [setNamed, h, this]

theorem fillLoop_ok {α β : Type} (key : α → Ident) (f : α → Except Err β) (ms : List α) :
    ∀ (t t' : List (Ident × β)), fillLoop key f t ms = .ok t' →
      t'.map Prod.fst = t.map Prod.fst ∧ (∀ m ∈ ms, ∃ v, f m = .ok v) ∧
      ∀ (i : Nat) id w, t[i]? = some (id, w) →
        ((∀ m ∈ ms, key m ≠ id) → t'[i]? = some (id, w)) ∧
        (∀ pre m post, ms = pre ++ m :: post → key m = id → (∀ n ∈ post, key n ≠ id) →
          ∃ v, f m = .ok v ∧ t'[i]? = some (id, v)) := by
  induction ms with
  | nil =>
    intro t t' h
    cases h
    exact ⟨rfl, by simp, fun i id w hi => ⟨fun _ => hi, fun pre m post hm => by simp at hm⟩⟩
  | cons m ms ih =>
    intro t t' h
    simp only [fillLoop] at h
    split at h
    · cases h
    · rename_i v hv
      obtain ⟨h1, h2, h3⟩ := ih _ _ h
      refine ⟨h1.trans (setNamed_keys _ _ _), ?_, ?_⟩
      · intro n hn
        rcases List.mem_cons.1 hn with rfl | hn
        · exact ⟨v, hv⟩
        · exact h2 n hn
      · intro i id w hi
        obtain ⟨g1, g2⟩ := setNamed_get t (key m) v i id w hi
        constructor
        · intro hne
          exact (h3 i id w (g2 (fun e => hne m List.mem_cons_self e.symm))).1
            (fun n hn => hne n (List.mem_cons_of_mem _ hn))
        · intro pre n post hsplit hk hpost
          cases pre with
          | nil =>
            rw [List.nil_append, List.cons.injEq] at hsplit
            obtain ⟨rfl, rfl⟩ := hsplit
            exact ⟨v, hv, (h3 i id v (g1 hk.symm)).1 hpost⟩
          | cons p pre =>
            rw [List.cons_append, List.cons.injEq] at hsplit
            obtain ⟨rfl, rfl⟩ := hsplit
            by_cases hid : id = key m
            · exact (h3 i id v (g1 hid)).2 pre n post rfl hk hpost
            · exact (h3 i id w (g2 hid)).2 pre n post rfl hk hpost

theorem fillLoop_total {α β : Type} (key : α → Ident) (f : α → Except Err β) (ms : List α)
    (h : ∀ m ∈ ms, ∃ v, f m = .ok v) : ∀ t, ∃ t', fillLoop key f t ms = .ok t' := by
  induction ms with
  | nil => exact fun t => ⟨t, rfl⟩
  | cons m ms ih =>
    intro t
    obtain ⟨v, hv⟩ := h m List.mem_cons_self
    obtain ⟨t', ht⟩ := ih (fun n hn => h n (List.mem_cons_of_mem _ hn)) (setNamed t (key m) v)
    exact ⟨t', by simp only [fillLoop, hv, ht]⟩

theorem fillLoop_error {α β : Type} (key : α → Ident) (f : α → Except Err β) (pre : List α) (m : α) (post : List α) (e : Err)
    (h : ∀ n ∈ pre, ∃ v, f n = .ok v) (hm : f m = .error e) : ∀ t, fillLoop key f t (pre ++ m :: post) = .error e := by
  induction pre with
  | nil => intro t; simp only [List.nil_append, fillLoop, hm]
  | cons n pre ih =>
    intro t
    obtain ⟨v, hv⟩ := h n List.mem_cons_self
    simp only [List.cons_append, fillLoop, hv]
    exact ih (fun n hn => h n (List.mem_cons_of_mem _ hn)) _

/-! ### `energy_per_meter` -/

theorem energyPerMeter_ok {period : Option Int} {mains : Bool} {ms : List EMeter} {t : EnergyTable}
    (h : energyPerMeter period mains ms = .ok t) :
    mains = false ∧ fillLoop EMeter.id (meterEnergy period) (ms.map (fun m => (m.id, acTypeNames.map (fun _ => .nan)))) ms = .ok t := by
  unfold energyPerMeter at h
  split at h
  · cases h
  · rename_i t' ht
    cases mains with
    | true => simp [energyWithRemainder, mostCommon] at h
    | false => simp only [Bool.false_eq_true, if_false] at h; cases h; exact ⟨rfl, ht⟩

theorem column_cell (t : EnergyTable) (i : Nat) (id : Ident) (g : String → FVal Rat)
    (h : t[i]? = some (id, acTypeNames.map g)) (k : String) (hk : k ∈ acTypeNames) : IsCell t i k (g k) := by
  refine ⟨id, _, h, ?_⟩
  simp only [acTypeNames, List.mem_cons, List.not_mem_nil, or_false] at hk
  rcases hk with rfl | rfl | rfl <;> rfl

theorem energyColumn_map (s : Option (List (String × FVal Rat))) :
    ∃ g, energyColumn s = acTypeNames.map g ∧ ∀ k, PeriodCellOf s k (g k) := by
  cases s with
  | none => exact ⟨fun _ => .nan, rfl, fun k => ⟨by simp, by simp⟩⟩
  | some s =>
    refine ⟨fun k => (s.lookup k).getD .nan, rfl, fun k => ⟨?_, ?_⟩⟩
    · intro e x he hx
      cases he
      simp [hx]
    · intro hn
      simp [hn s rfl]

/-- C86. `energy_per_meter` has a column for every meter, in their order, and a row for every AC type. The cells of a meter
are the energies it measured, NaN for the other AC types - provided no later meter has the same identifier. -/
theorem C86_energy (ms : List EMeter) (t : EnergyTable) (h : energyPerMeter none false ms = .ok t) :
    t.map Prod.fst = ms.map EMeter.id ∧
    ∀ pre m post, ms = pre ++ m :: post → (∀ n ∈ post, n.id ≠ m.id) →
      ∃ s, m.total = .ok s ∧ ∀ k ∈ acTypeNames, ∃ v, IsCell t pre.length k v ∧ CellOf s k v := by
  obtain ⟨_, h⟩ := energyPerMeter_ok h
  obtain ⟨h1, _, h3⟩ := fillLoop_ok _ _ _ _ _ h
  refine ⟨by rw [h1]; simp, ?_⟩
  intro pre m post hsplit hpost
  obtain ⟨col, hcol, hget⟩ := (h3 pre.length m.id (acTypeNames.map (fun _ => .nan)) (by simp [hsplit])).2 pre m post hsplit rfl hpost
  simp only [meterEnergy] at hcol
  cases hs : m.total with
  | error e => rw [hs] at hcol; cases hcol
  | ok s =>
    rw [hs] at hcol
    simp only [Except.ok.injEq] at hcol
    refine ⟨s, rfl, fun k hk => ?_⟩
    obtain ⟨g, hg, hc⟩ := energyColumn_map (s.map (fun s => s.map (fun p => (p.1, FVal.ofOption p.2))))
    rw [hg] at hcol
    subst hcol
    refine ⟨g k, column_cell t _ _ g hget k hk, ?_⟩
    obtain ⟨c1, c2⟩ := hc k
    have hl : ∀ e : EnergySeries, (e.map (fun p => (p.1, FVal.ofOption p.2))).lookup k = (e.lookup k).map FVal.ofOption :=
      fun e => lookup_map_val e (fun _ v => FVal.ofOption v) k
    constructor
    · rintro e x rfl hx
      exact c1 _ (.num x) rfl (by rw [hl, hx]; rfl)
    · intro hn
      cases s with
      | none => exact c2 (by simp)
      | some e =>
        cases hv : e.lookup k with
        | none => exact c2 (by rintro _ ⟨⟩; rw [hl, hv]; rfl)
        | some w =>
          cases w with
          | none => exact c1 _ .nan rfl (by rw [hl, hv]; rfl)
          | some x => exact absurd hv (hn e x rfl)

/-- C86. With `per_period` the cells are what `average_energy_per_period` returns for the meter. -/
theorem C86_energy_per_period (p : Int) (ms : List EMeter) (t : EnergyTable) (h : energyPerMeter (some p) false ms = .ok t) :
    t.map Prod.fst = ms.map EMeter.id ∧
    ∀ pre m post, ms = pre ++ m :: post → (∀ n ∈ post, n.id ≠ m.id) →
      ∃ s, m.average p = .ok s ∧ ∀ k ∈ acTypeNames, ∃ v, IsCell t pre.length k v ∧ PeriodCellOf s k v := by
  obtain ⟨_, h⟩ := energyPerMeter_ok h
  obtain ⟨h1, _, h3⟩ := fillLoop_ok _ _ _ _ _ h
  refine ⟨by rw [h1]; simp, ?_⟩
  intro pre m post hsplit hpost
  obtain ⟨col, hcol, hget⟩ := (h3 pre.length m.id (acTypeNames.map (fun _ => .nan)) (by simp [hsplit])).2 pre m post hsplit rfl hpost
  simp only [meterEnergy] at hcol
  cases hs : m.average p with
  | error e => rw [hs] at hcol; cases hcol
  | ok s =>
    rw [hs] at hcol
    simp only [Except.ok.injEq] at hcol
    refine ⟨s, rfl, fun k hk => ?_⟩
    obtain ⟨g, hg, hc⟩ := energyColumn_map s
    rw [hg] at hcol
    subst hcol
    exact ⟨g k, column_cell t _ _ g hget k hk, hc k⟩

theorem isCell_unique {t : EnergyTable} {i : Nat} {k : String} {v w : FVal Rat} (h1 : IsCell t i k v) (h2 : IsCell t i k w) :
    v = w := by
  obtain ⟨a, c, h1, h3⟩ := h1
  obtain ⟨b, d, h2, h4⟩ := h2
  rw [h1] at h2
  cases h2
  rw [h3] at h4
  exact Option.some.inj h4

/-- C86. The energy per period is the energy over the number of periods in the time frame of the meter: for the same
meters, the cell of `energy_per_meter(per_period)` is the cell of `energy_per_meter()` divided by the duration over the
length of the period. -/
theorem C86_period_ratio (p td : Int) (ms pre post : List EMeter) (m : EMeter) (t t' : EnergyTable) (e : EnergySeries)
    (h : energyPerMeter none false ms = .ok t) (h' : energyPerMeter (some p) false ms = .ok t')
    (hm : ms = pre ++ m :: post) (hpost : ∀ n ∈ post, n.id ≠ m.id) (ht : m.total = .ok (some e))
    (ha : m.average p = averageEnergy false td p e) (hp : p ≠ 0) (htd : td ≠ 0) (k : String) (hk : k ∈ acTypeNames) (x : Rat)
    (hx : Measured e k x) :
    IsCell t pre.length k (.num x) ∧ IsCell t' pre.length k (.num (x / ((td : Rat) / p))) := by
  obtain ⟨s, hs, hc⟩ := (C86_energy ms t h).2 pre m post hm hpost
  obtain ⟨s', hs', hc'⟩ := (C86_energy_per_period p ms t' h').2 pre m post hm hpost
  rw [ht] at hs
  cases hs
  obtain ⟨v, hv, hv2⟩ := hc k hk
  obtain ⟨w, hw, hw2⟩ := hc' k hk
  refine ⟨by rw [← hv2.1 e x rfl hx]; exact hv, ?_⟩
  rw [ha] at hs'
  simp only [averageEnergy, Bool.false_eq_true, if_false, htd, Except.ok.injEq] at hs'
  subst hs'
  have hpq : (p : Rat) ≠ 0 := by exact_mod_cast hp
  have htq : (td : Rat) ≠ 0 := by exact_mod_cast htd
  have hq : ((td : Rat) / 1000000000) / ((p : Rat) / 1000000000) = (td : Rat) / p := by
    field_simp
  have := hw2.1 _ (.num (x / ((td : Rat) / p))) rfl (by
    rw [lookup_map_val e (fun _ v => divNan v (some (((td : Rat) / 1000000000) / ((p : Rat) / 1000000000)))) k, hx, hq]
    simp only [Option.map_some, divNan, fdiv]
    rw [if_neg (div_ne_zero htq hpq)])
  rw [← this]
  exact hw

/-- C86. `energy_per_meter` returns exactly when every meter answers; otherwise it raises what the first meter that does
not answer raises. -/
theorem C86_energy_returns (period : Option Int) (ms : List EMeter) :
    ((∃ t, energyPerMeter period false ms = .ok t) ↔
      ∀ m ∈ ms, (period = none → ∃ s, m.total = .ok s) ∧ (∀ p, period = some p → ∃ s, m.average p = .ok s)) ∧
    ∀ pre m post e, ms = pre ++ m :: post →
      (∀ n ∈ pre, (period = none → ∃ s, n.total = .ok s) ∧ (∀ p, period = some p → ∃ s, n.average p = .ok s)) →
      ((period = none ∧ m.total = .error e) ∨ ∃ p, period = some p ∧ m.average p = .error e) →
      energyPerMeter period false ms = .error e := by
  have key : ∀ m : EMeter, (∃ v, meterEnergy period m = .ok v) ↔
      (period = none → ∃ s, m.total = .ok s) ∧ (∀ p, period = some p → ∃ s, m.average p = .ok s) := by
    intro m
    cases period with
    | none => cases hm : m.total <;> simp [meterEnergy, hm]
    | some p => cases hm : m.average p <;> simp [meterEnergy, hm]
  constructor
  · constructor
    · rintro ⟨t, ht⟩ m hm
      exact (key m).1 ((fillLoop_ok _ _ _ _ _ (energyPerMeter_ok ht).2).2.1 m hm)
    · intro h
      obtain ⟨t, ht⟩ := fillLoop_total EMeter.id (meterEnergy period) ms (fun m hm => (key m).2 (h m hm))
        (ms.map (fun m => (m.id, acTypeNames.map (fun _ => .nan))))
      exact ⟨t, by simp only [energyPerMeter, ht, Bool.false_eq_true, if_false]⟩
  · intro pre m post e hsplit hpre hm
    have : meterEnergy period m = .error e := by
      rcases hm with ⟨rfl, hm⟩ | ⟨p, rfl, hm⟩ <;> simp [meterEnergy, hm]
    unfold energyPerMeter
    have hf := fillLoop_error EMeter.id (meterEnergy period) pre m post e (fun n hn => (key n).2 (hpre n hn)) this
      (ms.map (fun m => (m.id, acTypeNames.map (fun _ => .nan))))
    rw [← hsplit] at hf
    rw [hf]

/-- C86. Adding up row `k` of `energy_per_meter` gives the energy of the group, `total_energy`, when the meters have
distinct identifiers and every meter measured AC type `k`. Missing: see `C86_repeated_counterexample` and
`C79_group`. -/
theorem C86_rows_add_up_partial (ms : List EMeter) (ser : List EnergySeries) (t : EnergyTable) (k : String)
    (hk : k ∈ acTypeNames) (h : energyPerMeter none false ms = .ok t) (hid : (ms.map EMeter.id).Nodup) (hne : ms ≠ [])
    (hs : List.Forall₂ (fun m s => m.total = .ok (some s)) ms ser) (hx : ∀ s ∈ ser, ∃ x, Measured s k x) :
    ∃ (xs : List Rat) (r : EnergySeries), xs.length = ms.length ∧ (∀ (i : Nat) x, xs[i]? = some x → IsCell t i k (.num x)) ∧
      groupEnergy ser = some r ∧ Measured r k xs.sum := by
  have hxs : ∃ xs, List.Forall₂ (fun s x => Measured s k x) ser xs := by
    clear hs
    induction ser with
    | nil => exact ⟨[], .nil⟩
    | cons s ser ih =>
      obtain ⟨x, h1⟩ := hx s List.mem_cons_self
      obtain ⟨xs, h2⟩ := ih (fun s hs => hx s (List.mem_cons_of_mem _ hs))
      exact ⟨x :: xs, .cons h1 h2⟩
  obtain ⟨xs, hxs⟩ := hxs
  have hlen : xs.length = ms.length := by rw [← hxs.length_eq, ← hs.length_eq]
  cases ser with
  | nil => cases hs; exact absurd rfl hne
  | cons s ser =>
    obtain ⟨r, h1, _, h3⟩ := C79_group s ser
    refine ⟨xs, r, hlen, ?_, h1, (h3 k _).2 ⟨xs, hxs, rfl⟩⟩
    intro i x hi
    have hil : i < ms.length := by
      rw [← hlen]
      exact (List.getElem?_eq_some_iff.1 hi).1
    have hsplit : ms = ms.take i ++ ms[i] :: ms.drop (i + 1) := by
      rw [List.cons_getElem_drop_succ, List.take_append_drop]
    have hpost : ∀ n ∈ ms.drop (i + 1), n.id ≠ ms[i].id := by
      intro n hn he
      rw [hsplit, List.map_append, List.map_cons] at hid
      have := (List.nodup_append.1 hid).2.1
      rw [List.nodup_cons] at this
      exact this.1 (by rw [← he]; exact List.mem_map_of_mem hn)
    obtain ⟨s', hs', hc⟩ := (C86_energy ms t h).2 _ _ _ hsplit hpost
    obtain ⟨v, hv, hv2⟩ := hc k hk
    rw [List.length_take, Nat.min_eq_left (le_of_lt hil)] at hv
    have hil2 : i < (s :: ser).length := by rw [← hs.length_eq]; exact hil
    have hm := (List.forall₂_iff_get.1 hs).2 i hil hil2
    simp only [List.get_eq_getElem] at hm
    rw [hm] at hs'
    cases hs'
    have hil3 : i < xs.length := by rw [hlen]; exact hil
    have hxm := (List.forall₂_iff_get.1 hxs).2 i hil2 hil3
    simp only [List.get_eq_getElem] at hxm
    rw [List.getElem?_eq_getElem hil3] at hi
    cases hi
    rw [← hv2.1 _ _ rfl hxm]
    exact hv

/-- C86, counterexample. `energy_per_meter` does not leave out AC types that no meter measured. -/
theorem C86_rows_kept_counterexample :
    ∃ (ms : List EMeter) (t : EnergyTable), energyPerMeter none false ms = .ok t ∧ ms ≠ [] ∧
      ∀ i < ms.length, IsCell t i "reactive" .nan := by
  refine ⟨[⟨.meter ⟨.one 1, 1, "d"⟩, .ok (some [("active", some 3)]), fun _ => .ok none⟩], _, rfl, by simp, ?_⟩
  intro i hi
  have : i = 0 := by simpa using hi
  subst this
  exact ⟨_, _, rfl, rfl⟩

/-- C86, counterexample. When two meters have the same identifier, the first gets the energy of the second. -/
theorem C86_repeated_counterexample :
    ∃ (m n : EMeter) (t : EnergyTable), m.total = .ok (some [("active", some 3)]) ∧ n.total = .ok (some [("active", some 5)]) ∧
      energyPerMeter none false [m, n] = .ok t ∧ IsCell t 0 "active" (.num 5) :=
  ⟨⟨.meter ⟨.one 1, 1, "d"⟩, .ok (some [("active", some 3)]), fun _ => .ok none⟩,
    ⟨.meter ⟨.one 1, 1, "d"⟩, .ok (some [("active", some 5)]), fun _ => .ok none⟩, _, rfl, rfl, rfl, ⟨_, _, rfl, rfl⟩⟩

/-- C86, counterexample. With `mains` no remainder is ever returned: when all meters answer, `AttributeError` is raised. -/
theorem C86_mains_counterexample (period : Option Int) (ms : List EMeter) (t : EnergyTable)
    (h : energyPerMeter period false ms = .ok t) : energyPerMeter period true ms = .error .attributeError := by
  have := (energyPerMeter_ok h).2
  simp only [energyPerMeter, this, if_true, energyWithRemainder, mostCommon]

/-! ### `dropout_rate` -/

theorem foldl_nanAdd (l : List Rat) : ∀ a : Rat, (l.map some).foldl nanAdd (some a) = some (a + l.sum) := by
  induction l with
  | nil => intro a; simp
  | cons x l ih => intro a; simp only [List.map_cons, List.foldl_cons, nanAdd, ih, List.sum_cons, add_assoc]

theorem foldl_nanAdd_none (l : List (Option Rat)) : l.foldl nanAdd none = none := by
  induction l with
  | nil => rfl
  | cons x l ih => simpa [nanAdd] using ih

theorem foldl_nanAdd_nan (l : List (Option Rat)) (h : none ∈ l) : ∀ a, l.foldl nanAdd a = none := by
  induction l with
  | nil => simp at h
  | cons x l ih =>
    intro a
    rw [List.foldl_cons]
    rcases List.mem_cons.1 h with rfl | h
    · cases a <;> exact foldl_nanAdd_none l
    · exact ih h _

theorem sum_bounds (l : List Rat) (lo hi : Rat) (h : ∀ x ∈ l, lo ≤ x ∧ x ≤ hi) :
    lo * l.length ≤ l.sum ∧ l.sum ≤ hi * l.length := by
  induction l with
  | nil => simp
  | cons x l ih =>
    obtain ⟨h1, h2⟩ := ih (fun y hy => h y (List.mem_cons_of_mem _ hy))
    obtain ⟨h3, h4⟩ := h x List.mem_cons_self
    simp only [List.length_cons, List.sum_cons, Nat.cast_add, Nat.cast_one]
    constructor <;> linarith

/-- C86. The dropout rate of a group is the mean of the rates of its meters, each with the same weight; it lies between any
bounds of them, so in the unit interval. -/
theorem C86_dropout_mean (sectionsGiven : Bool) (ms : List DMeter) (rs : List Rat) (hne : ms ≠ [])
    (h : List.Forall₂ IsRate ms rs) (lo hi : Rat) (hb : ∀ r ∈ rs, lo ≤ r ∧ r ≤ hi) :
    ∃ r, groupDropoutRate false sectionsGiven ms = .ok (.rate (some r)) ∧ r * ms.length = rs.sum ∧ lo ≤ r ∧ r ≤ hi := by
  have hlen : ms.length = rs.length := h.length_eq
  have hpos : (0 : Rat) < rs.length := by
    rw [← hlen]
    exact_mod_cast List.length_pos_iff.2 hne
  have hc : collectStats DMeter.rate ms = .ok (rs.map some) := by
    refine mapE_ok.2 ?_
    rw [List.forall₂_map_right_iff]
    exact h
  obtain ⟨b1, b2⟩ := sum_bounds rs lo hi hb
  refine ⟨rs.sum / rs.length, ?_, ?_, ?_, ?_⟩
  · have hrs : rs.map some ≠ [] := by
      intro h0
      have : rs.length = 0 := by rw [List.map_eq_nil_iff] at h0; rw [h0]; rfl
      rw [this] at hpos
      simp at hpos
    simp only [groupDropoutRate, checkFullResults, Bool.false_and, Bool.false_eq_true, if_false, hc, npMean, hrs,
      foldl_nanAdd, zero_add, Option.map_some, List.length_map]
  · rw [hlen]
    field_simp
  · rw [le_div_iff₀ hpos]; exact b1
  · rw [div_le_iff₀ hpos]; exact b2

/-- C86. One meter without a rate leaves the group without one; so does a group without meters. -/
theorem C86_dropout_nan (sectionsGiven : Bool) (ms : List DMeter) (rs : List (Option Rat))
    (h : List.Forall₂ (fun m r => m.rate = .ok r) ms rs) (hn : ms = [] ∨ none ∈ rs) :
    groupDropoutRate false sectionsGiven ms = .ok (.rate none) := by
  have hc : collectStats DMeter.rate ms = .ok rs := mapE_ok.2 h
  simp only [groupDropoutRate, checkFullResults, Bool.false_and, Bool.false_eq_true, if_false, hc]
  rcases hn with rfl | hn
  · cases h; rfl
  · simp only [npMean, foldl_nanAdd_nan rs hn]
    split <;> rfl

/-- C86. Full results of more than one meter need `sections`: without them `RuntimeError` is raised, before any meter is
asked; with them, or for one meter, the results of the meters are unified in order. -/
theorem C86_full_results (sectionsGiven : Bool) (ms : List DMeter) :
    (sectionsGiven = false → 1 < ms.length → groupDropoutRate true sectionsGiven ms = .error .runtimeError) ∧
    (sectionsGiven = true ∨ ms.length ≤ 1 → ∀ r rs, List.Forall₂ (fun m r => m.results = .ok r) ms (r :: rs) →
      (∀ u, dropoutUnifyAll r rs = .ok u → groupDropoutRate true sectionsGiven ms = .ok (.results u)) ∧
      (∀ e, dropoutUnifyAll r rs = .error e → groupDropoutRate true sectionsGiven ms = .error e)) := by
  constructor
  · rintro rfl h
    simp [groupDropoutRate, checkFullResults, h]
  · intro hs r rs h
    have hc : collectStats DMeter.results ms = .ok (r :: rs) := mapE_ok.2 h
    have hk : checkFullResults true sectionsGiven ms.length = .ok () := by
      unfold checkFullResults
      rcases hs with rfl | hs
      · simp
      · rw [if_neg]
        simp [hs]
    constructor
    · intro u hu
      simp [groupDropoutRate, hk, hc, hu]
    · intro u hu
      simp [groupDropoutRate, hk, hc, hu]

/-- C86. For two meters with one common section, the rate combined from the full results is the rate returned without
`full_results`. Missing: more sections and more meters, see `C86_full_differs_counterexample`. -/
theorem C86_full_agrees_partial (a b : DMeter) (s e : Int) (p q : Rat) (n k : Nat) (hn : 0 < n + k)
    (ha : a.rate = .ok (some p)) (hb : b.rate = .ok (some q))
    (ha' : a.results = .ok [⟨s, e, ⟨some p, n⟩⟩]) (hb' : b.results = .ok [⟨s, e, ⟨some q, k⟩⟩]) :
    ∃ u r, groupDropoutRate true true [a, b] = .ok (.results u) ∧
      groupDropoutRate false true [a, b] = .ok (.rate (some r)) ∧ dropoutCombined (u.map RRow.val) = r := by
  have hu := dropoutUnify_same [⟨s, e, ⟨some p, n⟩⟩] [⟨s, e, ⟨some q, k⟩⟩] (.cons ⟨rfl, rfl⟩ .nil) (by simp)
  refine ⟨[⟨s, e, ⟨some ((p + q) / 2), n + k⟩⟩], (p + q) / 2, ?_, ?_, ?_⟩
  · simp only [groupDropoutRate, checkFullResults, collectStats, mapE, ha', hb', dropoutUnifyAll, hu]
    simp [halve, nanAdd]
  · simp [groupDropoutRate, checkFullResults, collectStats, mapE, ha, hb, npMean, nanAdd]
  · have h0 : ((n : Rat) + k) ≠ 0 := by
      have : (0 : Rat) < n + k := by exact_mod_cast hn
      exact ne_of_gt this
    have h1 : n + k ≠ 0 := Nat.pos_iff_ne_zero.1 hn
    simp only [dropoutCombined, List.map_cons, List.map_nil, List.sum_cons, List.sum_nil, h1, if_false, nanMul,
      skipSum, List.filterMap_cons, id, List.filterMap_nil, add_zero]
    push_cast
    rw [div_self h0, mul_one]

/-- C86, counterexample. With three meters over one section, all with the same number of samples, the rate combined from
the full results is not the mean of the rates. -/
theorem C86_full_differs_counterexample :
    ∃ (ms : List DMeter) (u : List (RRow DRow)) (r : Rat), groupDropoutRate true true ms = .ok (.results u) ∧
      groupDropoutRate false true ms = .ok (.rate (some r)) ∧ dropoutCombined (u.map RRow.val) ≠ r := by
  refine ⟨[⟨.ok (some 0), .ok [⟨0, 100, ⟨some 0, 10⟩⟩]⟩, ⟨.ok (some 0), .ok [⟨0, 100, ⟨some 0, 10⟩⟩]⟩,
    ⟨.ok (some 1), .ok [⟨0, 100, ⟨some 1, 10⟩⟩]⟩], [⟨0, 100, ⟨some (1 / 2), 30⟩⟩], 1 / 3, ?_, ?_, ?_⟩
  · decide +kernel
  · decide +kernel
  · decide +kernel

/-! ### `good_sections` -/

/-- C86. The good sections of a group with at most one meter are the times at which every meter is good. Missing: groups
with more meters, for which only the first meter is asked, see `C86_good_sections_counterexample`. -/
theorem C86_good_sections_partial (gs : List (List TF)) (hlen : gs.length = 1) :
    ∃ g, groupGoodSections (gs.map .ok) = .ok g ∧ ∀ p, CoveredBy g p ↔ ∀ h ∈ gs, CoveredBy h p := by
  match gs, hlen with
  | [g], _ => exact ⟨g, rfl, fun p => by simp⟩

/-- C86. A time at which every meter is good is in a good section of the group. -/
theorem C86_good_sections_complete (gs : List (List TF)) (hne : gs ≠ []) :
    ∃ g, groupGoodSections (gs.map .ok) = .ok g ∧ ∀ p, (∀ h ∈ gs, CoveredBy h p) → CoveredBy g p := by
  cases gs with
  | nil => exact absurd rfl hne
  | cons g gs => exact ⟨g, rfl, fun p h => h g List.mem_cons_self⟩

/-- C86, counterexample. The second meter may have no reading in a good section of the group. -/
theorem C86_good_sections_counterexample :
    ∃ (gs : List (List TF)) (g : List TF) (p : Int), groupGoodSections (gs.map .ok) = .ok g ∧ CoveredBy g p ∧
      ∃ h ∈ gs, ¬ CoveredBy h p :=
  ⟨[[⟨some 0, some 10, true, false, false⟩], []], _, 5, rfl, ⟨_, List.mem_cons_self, 0, 10, rfl, rfl, by decide, by decide⟩,
    [], by simp, by simp [CoveredBy]⟩

/-! ### Available measurements -/

/-- C86. The AC types available from a group are those available from one of its meters, each once; an unknown physical
quantity raises `ValueError` unless the group is empty. -/
theorem C86_ac_types (q : String) (ms : List (List Measurement)) :
    (q ∈ physicalQuantities → ∃ l, groupAcTypes q ms = .ok l ∧ l.Nodup ∧
      ∀ t, t ∈ l ↔ ∃ m ∈ ms, ∃ x ∈ m, x.pq = q ∧ x.type = some t) ∧
    (q ∉ physicalQuantities → ms ≠ [] → groupAcTypes q ms = .error .valueError) := by
  constructor
  · intro hq
    have hc : mapE (fun m => availableAcTypes m q) ms =
        .ok (ms.map (fun m => (m.filter (fun m => m.pq = q)).filterMap Measurement.type)) := by
      refine mapE_ok.2 ?_
      rw [List.forall₂_map_right_iff, List.forall₂_same]
      intro m _
      simp [availableAcTypes, hq]
    refine ⟨_, by simp only [groupAcTypes, hc]; rfl, List.nodup_dedup _, ?_⟩
    intro t
    simp only [List.mem_dedup, List.mem_flatten, List.mem_map]
    constructor
    · rintro ⟨l, ⟨m, hm, rfl⟩, ht⟩
      obtain ⟨x, hx, hxt⟩ := List.mem_filterMap.1 ht
      obtain ⟨h1, h2⟩ := List.mem_filter.1 hx
      exact ⟨m, hm, x, h1, by simpa using h2, hxt⟩
    · rintro ⟨m, hm, x, hx, hpq, hxt⟩
      exact ⟨_, ⟨m, hm, rfl⟩, List.mem_filterMap.2 ⟨x, List.mem_filter.2 ⟨hx, by simpa using hpq⟩, hxt⟩⟩
  · intro hq hne
    cases ms with
    | nil => exact absurd rfl hne
    | cons m ms => simp [groupAcTypes, mapE, availableAcTypes, hq]

/-- C86. The same for a list of physical quantities: the AC types of any of them, from any meter. -/
theorem C86_ac_types_many (qs : List String) (ms : List (List Measurement)) :
    ((∀ q ∈ qs, q ∈ physicalQuantities) → ∃ l, groupAcTypesMany qs ms = .ok l ∧ l.Nodup ∧
      ∀ t, t ∈ l ↔ ∃ m ∈ ms, ∃ x ∈ m, x.pq ∈ qs ∧ x.type = some t) ∧
    ((∃ q ∈ qs, q ∉ physicalQuantities) → ms ≠ [] → groupAcTypesMany qs ms = .error .valueError) := by
  constructor
  · intro hq
    have hm : ∀ m : List Measurement, availableAcTypesMany qs m =
        .ok (qs.map (fun q => (m.filter (fun m => m.pq = q)).filterMap Measurement.type)).flatten.dedup := by
      intro m
      have hc : mapE (fun q => availableAcTypes m q) qs =
          .ok (qs.map (fun q => (m.filter (fun m => m.pq = q)).filterMap Measurement.type)) := by
        refine mapE_ok.2 ?_
        rw [List.forall₂_map_right_iff, List.forall₂_same]
        intro q hq'
        simp [availableAcTypes, hq q hq']
      simp only [availableAcTypesMany, hc]
    have hc : mapE (availableAcTypesMany qs) ms = .ok (ms.map (fun m =>
        (qs.map (fun q => (m.filter (fun m => m.pq = q)).filterMap Measurement.type)).flatten.dedup)) := by
      refine mapE_ok.2 ?_
      rw [List.forall₂_map_right_iff, List.forall₂_same]
      intro m _
      exact hm m
    refine ⟨_, by simp only [groupAcTypesMany, hc]; rfl, List.nodup_dedup _, ?_⟩
    intro t
    simp only [List.mem_dedup, List.mem_flatten, List.mem_map]
    constructor
    · rintro ⟨l, ⟨m, hm, rfl⟩, ht⟩
      rw [List.mem_dedup, List.mem_flatten] at ht
      obtain ⟨l, hl, ht⟩ := ht
      obtain ⟨q, hq', rfl⟩ := List.mem_map.1 hl
      obtain ⟨x, hx, hxt⟩ := List.mem_filterMap.1 ht
      obtain ⟨h1, h2⟩ := List.mem_filter.1 hx
      have h2 : x.pq = q := by simpa using h2
      exact ⟨m, hm, x, h1, by rw [h2]; exact hq', hxt⟩
    · rintro ⟨m, hm, x, hx, hpq, hxt⟩
      refine ⟨_, ⟨m, hm, rfl⟩, ?_⟩
      rw [List.mem_dedup, List.mem_flatten]
      exact ⟨_, List.mem_map.2 ⟨x.pq, hpq, rfl⟩, List.mem_filterMap.2 ⟨x, List.mem_filter.2 ⟨hx, by simp⟩, hxt⟩⟩
  · rintro ⟨q, hq, hbad⟩ hne
    have hm : ∀ m : List Measurement, availableAcTypesMany qs m = .error .valueError := by
      intro m
      have : mapE (fun q => availableAcTypes m q) qs = .error .valueError := by
        induction qs with
        | nil => simp at hq
        | cons p qs ih =>
          by_cases hp : p ∈ physicalQuantities
          · have hq' : q ∈ qs := by
              rcases List.mem_cons.1 hq with rfl | hq
              · exact absurd hp hbad
              · exact hq
            have := ih hq'
            simp only [mapE, this]
            split
            · rename_i e he; simp [availableAcTypes, hp] at he
            · rfl
          · simp [mapE, availableAcTypes, hp]
      simp only [availableAcTypesMany, this]
    cases ms with
    | nil => exact absurd rfl hne
    | cons m ms => simp [groupAcTypesMany, mapE, hm]

/-- C86. The physical quantities available from a group are those of its meters, each once. -/
theorem C86_physical_quantities (ms : List (List Measurement)) :
    (groupPhysicalQuantities ms).Nodup ∧
    ∀ q, q ∈ groupPhysicalQuantities ms ↔ ∃ m ∈ ms, ∃ x ∈ m, x.pq = q := by
  refine ⟨List.nodup_dedup _, fun q => ?_⟩
  simp only [groupPhysicalQuantities, List.mem_dedup, List.mem_flatten, List.mem_map]
  constructor
  · rintro ⟨l, ⟨m, hm, rfl⟩, hq⟩
    simp only [availablePhysicalQuantities, List.mem_dedup, List.mem_map] at hq
    obtain ⟨x, hx, rfl⟩ := hq
    exact ⟨m, hm, x, hx, rfl⟩
  · rintro ⟨m, hm, x, hx, rfl⟩
    exact ⟨_, ⟨m, hm, rfl⟩, by simp only [availablePhysicalQuantities, List.mem_dedup, List.mem_map]; exact ⟨x, hx, rfl⟩⟩

/-! ### `proportion_of_upstream_total_per_meter` -/

theorem sortsBefore_total (a b : FVal Rat) : sortsBefore a b = true ∨ sortsBefore b a = true := by
  cases a <;> cases b <;> simp [sortsBefore]
  exact le_total _ _

theorem sortsBefore_trans (a b c : FVal Rat) (h1 : sortsBefore a b = true) (h2 : sortsBefore b c = true) :
    sortsBefore a c = true := by
  cases a <;> cases b <;> cases c <;> simp_all [sortsBefore]
  exact le_trans h2 h1

/-- C86. `proportion_of_upstream_total_per_meter` has a row for every meter with the proportion it answers, when the
identifiers are distinct, larger proportions before smaller ones and NaN at the end. -/
theorem C86_proportions (ms : List (Ident × Except Err (FVal Rat))) (s : List (Ident × FVal Rat))
    (h : proportionPerMeter ms = .ok s) (hid : (ms.map Prod.fst).Nodup) :
    (∀ id v, (id, v) ∈ s ↔ (id, .ok v) ∈ ms) ∧ (s.map Prod.fst).Perm (ms.map Prod.fst) ∧
    s.Pairwise (fun a b => (a.2 = .nan → b.2 = .nan) ∧ ∀ x y, a.2 = .num x → b.2 = .num y → y ≤ x) := by
  unfold proportionPerMeter at h
  split at h
  · cases h
  rename_i s' hs'
  cases h
  obtain ⟨h1, h2, h3⟩ := fillLoop_ok _ _ _ _ _ hs'
  have hperm : (sortDescending s').Perm s' := List.perm_insertionSort _ _
  have hkeys : s'.map Prod.fst = ms.map Prod.fst := by rw [h1]; simp
  have hnd : (s'.map Prod.fst).Nodup := by rw [hkeys]; exact hid
  have hrow : ∀ id r, (id, r) ∈ ms → ∃ v, r = .ok v ∧ (id, v) ∈ s' := by
    intro id r hm
    obtain ⟨pre, post, hsplit⟩ := List.append_of_mem hm
    have hpost : ∀ n ∈ post, n.1 ≠ id := by
      intro n hn he
      rw [hsplit, List.map_append, List.map_cons] at hid
      have := (List.nodup_append.1 hid).2.1
      rw [List.nodup_cons] at this
      exact this.1 (List.mem_map.2 ⟨n, hn, he⟩)
    obtain ⟨v, hv, hget⟩ := (h3 pre.length id .nan (by simp [hsplit])).2 pre _ post hsplit rfl hpost
    exact ⟨v, hv, List.mem_of_getElem? hget⟩
  refine ⟨?_, ?_, ?_⟩
  · intro id v
    rw [hperm.mem_iff]
    constructor
    · intro hv
      have : id ∈ ms.map Prod.fst := by rw [← hkeys]; exact List.mem_map_of_mem hv
      obtain ⟨m, hm, rfl⟩ := List.mem_map.1 this
      obtain ⟨w, hw, hw2⟩ := hrow m.1 m.2 hm
      have : v = w := by
        have := List.inj_on_of_nodup_map hnd hv hw2 rfl
        exact congrArg Prod.snd this
      subst this
      rw [← hw]
      exact hm
    · intro hm
      obtain ⟨w, hw, hw2⟩ := hrow id _ hm
      cases hw
      exact hw2
  · rw [← hkeys]
    exact hperm.map _
  · have hs : (sortDescending s').Pairwise (fun a b => sortsBefore a.2 b.2 = true) := by
      have : Std.Total (fun a b : Ident × FVal Rat => sortsBefore a.2 b.2 = true) := ⟨fun a b => sortsBefore_total a.2 b.2⟩
      have : IsTrans (Ident × FVal Rat) (fun a b => sortsBefore a.2 b.2 = true) := ⟨fun a b c => sortsBefore_trans a.2 b.2 c.2⟩
      exact List.pairwise_insertionSort _ _
    refine hs.imp ?_
    intro a b hab
    constructor
    · intro ha
      rw [ha] at hab
      cases hb : b.2 with
      | nan => rfl
      | _ => rw [hb] at hab; simp [sortsBefore] at hab
    · intro x y hx hy
      rw [hx, hy] at hab
      simpa [sortsBefore] using hab

/-- C86. It returns exactly when every meter answers. -/
theorem C86_proportions_returns (ms : List (Ident × Except Err (FVal Rat))) :
    (∃ s, proportionPerMeter ms = .ok s) ↔ ∀ m ∈ ms, ∃ v, m.2 = .ok v := by
  constructor
  · rintro ⟨s, h⟩
    unfold proportionPerMeter at h
    split at h
    · cases h
    · rename_i s' hs'
      exact (fillLoop_ok _ _ _ _ _ hs').2.1
  · intro h
    obtain ⟨t, ht⟩ := fillLoop_total Prod.fst Prod.snd ms h (ms.map (fun m => (m.1, .nan)))
    exact ⟨sortDescending t, by simp only [proportionPerMeter, ht]⟩

/-! ### Examples -/

/-- Two meters, the first with two AC types. -/
def statMeters : List EMeter :=
  [⟨.meter ⟨.one 1, 1, "d"⟩, .ok (some [("active", some 6), ("reactive", some 2)]),
      fun p => averageEnergy false 172800000000000 p [("active", some 6), ("reactive", some 2)]⟩,
    ⟨.meter ⟨.one 2, 1, "d"⟩, .ok (some [("active", some 4)]),
      fun p => averageEnergy false 172800000000000 p [("active", some 4)]⟩]

example : energyPerMeter none false statMeters =
    .ok [(.meter ⟨.one 1, 1, "d"⟩, [.num 6, .nan, .num 2]), (.meter ⟨.one 2, 1, "d"⟩, [.num 4, .nan, .nan])] := rfl

example : (statMeters.map EMeter.id).Nodup ∧ ∀ m ∈ statMeters, ∃ s, m.total = .ok (some s) ∧ ∃ x, Measured s "active" x := by
  refine ⟨by simp [statMeters], ?_⟩
  intro m hm
  simp only [statMeters, List.mem_cons, List.not_mem_nil, or_false] at hm
  rcases hm with rfl | rfl
  · exact ⟨_, rfl, 6, rfl⟩
  · exact ⟨_, rfl, 4, rfl⟩

example : (energyPerMeter (some 86400000000000) false statMeters).map (fun t => t.map Prod.snd) =
    .ok [[.num 3, .nan, .num 1], [.num 2, .nan, .nan]] := by decide +kernel

example : groupDropoutRate false false [⟨.ok (some (1 / 2)), .ok []⟩, ⟨.ok (some 0), .ok []⟩] =
    .ok (.rate (some (1 / 4))) := by decide +kernel

example : groupDropoutRate true false [⟨.ok (some (1 / 2)), .ok []⟩, ⟨.ok (some 0), .ok []⟩] = .error .runtimeError := by
  decide +kernel

example : groupAcTypes "power" [[⟨"power", some "active", none, none⟩, ⟨"voltage", none, none, none⟩],
    [⟨"power", some "active", none, none⟩, ⟨"power", some "apparent", none, none⟩]] = .ok ["active", "apparent"] := by
  decide +kernel

example : (proportionPerMeter [(.meter ⟨.one 1, 1, "d"⟩, .ok .nan), (.meter ⟨.one 2, 1, "d"⟩, .ok (.num (1 / 4))),
    (.meter ⟨.one 3, 1, "d"⟩, .ok (.num (1 / 2)))]).map (fun s => s.map Prod.snd) =
    .ok [.num (1 / 2), .num (1 / 4), .nan] := by decide +kernel

end Nilmtk
