import Verif.Props.AllData
import Mathlib.Algebra.Order.Field.Rat
import Mathlib.Algebra.BigOperators.Group.List.Basic
/-!
C19–C21: total energy.
-/
namespace Nilmtk
open TF

/-! ### Lemmas -/

theorem dropna_append (a b : Series) : dropna (a ++ b) = dropna a ++ dropna b := by
  induction a with
  | nil => rfl
  | cons x l ih =>
    obtain ⟨t, v⟩ := x
    cases v <;> simp [dropna, ih]

theorem joules_append (msp : Rat) (x : List (Row Rat)) (r : Row Rat) (y : List (Row Rat)) :
    joules msp (x ++ r :: y) = joules msp (x ++ [r]) + joules msp (r :: y) := by
  induction x with
  | nil => simp [joules]
  | cons a l ih =>
    cases l with
    | nil => cases y <;> simp [joules]
    | cons b l =>
      simp only [List.cons_append, joules] at ih ⊢
      rw [ih]; ring

/-- Energy credited between the last reading of `x` and the first reading of `y`. -/
theorem joules_gap (msp : Rat) (x : List (Row Rat)) (a b : Row Rat) (y : List (Row Rat)) :
    joules msp (x ++ a :: b :: y) =
      joules msp (x ++ [a]) + min (toSecs (b.1 - a.1)) msp * a.2 + joules msp (b :: y) := by
  rw [joules_append, joules]; ring

theorem dropna_last (s : Series) (t : Int) (v : Rat) (h : s.getLast? = some (t, some v)) :
    ∃ x, dropna s = x ++ [(t, v)] := by
  obtain ⟨l, rfl⟩ := List.getLast?_eq_some_iff.1 h
  exact ⟨dropna l, by rw [dropna_append]; rfl⟩

theorem dropna_head (s : Series) (t : Int) (v : Rat) (h : s.head? = some (t, some v)) :
    dropna s = (t, v) :: dropna s.tail := by
  cases s with
  | nil => simp at h
  | cons a l =>
    simp only [List.head?_cons, Option.some.injEq] at h
    subst h; rfl

/-- Two consecutive chunks share a row which is not NaN. -/
def SharesReading (a b : Series) : Prop :=
  ∃ t v, a.getLast? = some (t, some v) ∧ b.head? = some (t, some v)

theorem energy_tails (msp : Rat) (c : Series) (cs : List Series) (h : Consecutive SharesReading (c :: cs)) :
    energyForPowerSeries msp (joinOverlapping (c :: cs)) =
      ((c :: cs).map (energyForPowerSeries msp)).sum := by
  induction cs generalizing c with
  | nil => simp [joinOverlapping]
  | cons d ds ih =>
    cases h with
    | cons _ _ _ hr hrest =>
      obtain ⟨t, v, h1, h2⟩ := hr
      have e := ih d hrest
      rw [List.map_cons, List.sum_cons, ← e]
      simp only [joinOverlapping, List.map_cons, List.flatten_cons, energyForPowerSeries]
      rw [dropna_append, dropna_append, dropna_append]
      obtain ⟨x, hx⟩ := dropna_last c t v h1
      rw [hx, dropna_head d t v h2, List.append_assoc, List.singleton_append, joules_append]
      rw [List.cons_append]; ring

/-! ### C19 -/

/-- C19 (chunk arithmetic). For any list of chunks in which neighbours share a non-NaN row, the
chunk energies add up to the energy of the reassembled series. -/
theorem C19_chunk_energies_add_up (msp : Rat) (chunks : List Series)
    (h : Consecutive SharesReading chunks) :
    (chunks.map (energyForPowerSeries msp)).sum =
      energyForPowerSeries msp (joinOverlapping chunks) := by
  cases chunks with
  | nil => simp [joinOverlapping, energyForPowerSeries, dropna, joules]
  | cons c cs => exact (energy_tails msp c cs h).symm

theorem consecutive_imp {β : Type} {R S : β → β → Prop} {l : List β} (Q : β → Prop)
    (hQ : ∀ a ∈ l, Q a) (h : ∀ a b, Q a → R a b → S a b) (hl : Consecutive R l) : Consecutive S l := by
  induction hl with
  | nil => exact .nil
  | single a => exact .single _
  | cons a b l hab _ ih =>
    exact .cons _ _ _ (h _ _ (hQ a List.mem_cons_self) hab) (ih (fun x hx => hQ x (List.mem_cons_of_mem _ hx)))

theorem selectRows_subset {α : Type} (table : List (Row α)) (a b : Nat) :
    ∀ r ∈ selectRows table a b, r ∈ table := fun _ hr =>
  List.mem_of_mem_drop (List.mem_of_mem_take hr)

/-- C19 for a section loaded from the HDF store in chunks of any size: if no row shared by two
chunks is NaN, the energies of the chunks add up to the energy of the rows of the section. -/
theorem C19_section_energy (table : Series) (hinc : Increasing table) (window sec : TF)
    (nLook cs : Int) (hcs : 0 < cs) (msp : Rat) (p : Int → Bool)
    (hp : ∀ t, p t = true ↔ Mem t (window.intersection sec))
    (hnan : Consecutive (fun c d : Chunk (Option Rat) => ∀ r, c.rows.getLast? = some r →
      d.rows.head? = some r → r.2 ≠ none) (loadSection (some table) window nLook cs sec).1.out) :
    ((loadSection (some table) window nLook cs sec).1.out.map
      (fun c => energyForPowerSeries msp c.rows)).sum =
      energyForPowerSeries msp (table.filter (fun r => p r.1)) := by
  by_cases h1 : (table.filter (fun r => p r.1)).length = 1
  · obtain ⟨_, hj⟩ := C12_single_row_lost table hinc window sec nLook cs hcs p hp h1
    have hr : energyForPowerSeries msp (table.filter (fun r => p r.1)) = 0 := by
      obtain ⟨⟨t, v⟩, ha⟩ := List.length_eq_one_iff.1 h1
      rw [ha]; cases v <;> simp [energyForPowerSeries, dropna, joules]
    rw [hr]
    have hz : ∀ c ∈ (loadSection (some table) window nLook cs sec).1.out, energyForPowerSeries msp c.rows = 0 := by
      generalize (loadSection (some table) window nLook cs sec).1.out = out at hj
      intro c hc
      have hsmall : c.rows.tail = [] := by
        by_contra hne
        obtain ⟨x, hx⟩ := List.exists_mem_of_ne_nil _ hne
        have := joinOverlapping_mem (out.map Chunk.rows) c.rows (List.mem_map_of_mem hc) x hx
        rw [hj] at this; simp at this
      cases hr : c.rows with
      | nil => simp [energyForPowerSeries, dropna, joules]
      | cons a l =>
        rw [hr] at hsmall
        simp only [List.tail_cons] at hsmall
        subst hsmall
        obtain ⟨t, v⟩ := a
        cases v <;> simp [energyForPowerSeries, dropna, joules]
    apply List.sum_eq_zero
    intro x hx
    obtain ⟨c, hc, rfl⟩ := List.mem_map.1 hx
    exact hz c hc
  · by_cases h0 : table.filter (fun r => p r.1) = []
    · obtain ⟨_, h2⟩ := C13_empty_section table hinc window sec nLook cs hcs p hp h0
      have : (loadSection (some table) window nLook cs sec).1.out.map
          (fun c => energyForPowerSeries msp c.rows) =
          ((loadSection (some table) window nLook cs sec).1.out.map Chunk.rows).map (energyForPowerSeries msp) := by
        simp
      rw [this, h2, h0]; simp
    · have h2 : 2 ≤ (table.filter (fun r => p r.1)).length := by
        have : 0 < (table.filter (fun r => p r.1)).length := List.length_pos_iff.2 h0
        omega
      have h3 := (C13_chunk_sizes_and_overlap table hinc window sec nLook cs hcs p hp h2).2.2
      have h4 := C12_section_rows_partial table hinc window sec nLook cs hcs p hp h1
      rw [← h4]
      have : (loadSection (some table) window nLook cs sec).1.out.map
          (fun c => energyForPowerSeries msp c.rows) =
          ((loadSection (some table) window nLook cs sec).1.out.map Chunk.rows).map (energyForPowerSeries msp) := by
        simp
      rw [this]
      apply C19_chunk_energies_add_up
      generalize (loadSection (some table) window nLook cs sec).1.out = out at h3 hnan
      clear h4 this h0 h1
      induction h3 with
      | nil => exact .nil
      | single a => exact .single _
      | cons a b l hab _ ih =>
        cases hnan with
        | cons _ _ _ hab' hrest =>
          refine .cons _ _ _ ?_ (ih hrest)
          obtain ⟨⟨t, v⟩, g1, g2⟩ := hab
          cases v with
          | none => exact absurd rfl (hab' _ g1 g2)
          | some v => exact ⟨t, v, g1, g2⟩

/-- C19: for data without NaN the total does not depend on the chunk size (nor on the look-ahead). -/
theorem C19_chunk_size_irrelevant (table : Series) (hinc : Increasing table) (window sec : TF)
    (nLook nLook' cs cs' : Int) (hcs : 0 < cs) (hcs' : 0 < cs') (msp : Rat)
    (hnan : ∀ r ∈ table, r.2 ≠ none) :
    ((loadSection (some table) window nLook cs sec).1.out.map
      (fun c => energyForPowerSeries msp c.rows)).sum =
    ((loadSection (some table) window nLook' cs' sec).1.out.map
      (fun c => energyForPowerSeries msp c.rows)).sum := by
  classical
  have hp : ∀ t, decide (Mem t (window.intersection sec)) = true ↔ Mem t (window.intersection sec) :=
    fun t => by simp
  have key : ∀ nLook cs : Int, 0 < cs → Consecutive (fun c d : Chunk (Option Rat) => ∀ r,
      c.rows.getLast? = some r → d.rows.head? = some r → r.2 ≠ none)
      (loadSection (some table) window nLook cs sec).1.out := by
    intro nLook cs hcs
    by_cases h2 : 2 ≤ (table.filter (fun r => decide (Mem r.1 (window.intersection sec)))).length
    · obtain ⟨start, stop, hs, _⟩ := loadSection_spec table hinc window sec nLook cs hcs _ hp h2
      have hj := hs.joined
      refine consecutive_imp (fun c => c.rows.tail ≠ [] ∧ ∀ r ∈ c.rows.tail, r ∈ table) ?_ ?_ hs.share
      · intro c hc
        refine ⟨?_, ?_⟩
        · have := (hs.size c hc).1
          intro h; have hl := congrArg List.length h; simp at hl; omega
        · intro r hr
          have := joinOverlapping_mem _ c.rows (List.mem_map_of_mem hc) r hr
          rw [hj] at this
          exact selectRows_subset _ _ _ r this
      · intro a b ⟨hne, hsub⟩ _ r hr _
        refine hnan r (hsub r ?_)
        cases hl : a.rows with
        | nil => rw [hl] at hne; simp at hne
        | cons x l =>
          rw [hl] at hne hr
          cases l with
          | nil => simp at hne
          | cons y l => rw [List.getLast?_cons_cons] at hr; exact List.mem_of_getLast? hr
    · rcases loadSection_cases table hinc window sec nLook cs hcs _ hp with h' | h' | ⟨a, b, _, h3, h4, h5, _⟩
      · obtain ⟨_, tf, h⟩ := h'; rw [h]; exact .single _
      · have := h'.2.2.2.1
        generalize (loadSection (some table) window nLook cs sec).1.out = out at this
        cases out with
        | nil => exact .nil
        | cons x l =>
          cases l with
          | nil => exact .single _
          | cons y l => simp at this
      · rw [← h3, select_length] at h2; omega
  rw [C19_section_energy table hinc window sec nLook cs hcs msp _ hp (key _ _ hcs),
    C19_section_energy table hinc window sec nLook' cs' hcs' msp _ hp (key _ _ hcs')]

/-- C19, exact loss at a boundary without a shared reading (the shared row is NaN, or the chunks do
not overlap, as in the CSV store): the interval between the last reading of one chunk and the first
reading of the next is credited by the whole series and by neither chunk. -/
theorem C19_boundary_loss (msp : Rat) (a b : Series) (ra rb : Row Rat) (x y : List (Row Rat))
    (ha : dropna a = x ++ [ra]) (hb : dropna b = rb :: y) :
    energyForPowerSeries msp (a ++ b) =
      energyForPowerSeries msp a + energyForPowerSeries msp b +
        min (toSecs (rb.1 - ra.1)) msp * ra.2 / joulesPerKwh := by
  rw [energyForPowerSeries, dropna_append, ha, hb, List.append_assoc, List.singleton_append, joules_gap,
    energyForPowerSeries, energyForPowerSeries, ha, hb]
  ring

/-- Rows at 0 s, 1 s, 2 s with 3.6 MW; the middle reading is NaN. -/
def nanTable : Series := [(0, some 3600000), (1000000000, none), (2000000000, some 3600000)]

/-- C19, negation without the NaN proviso: the same data loaded with chunk size 2 gives 2 kWh and
with chunk size 1 gives 0. -/
theorem C19_nan_counterexample :
    ((loadSection (some nanTable) TF.blank 0 2 (mk' (some 0) (some 3000000000))).1.out.map
      (fun c => energyForPowerSeries 10 c.rows)).sum = 2 ∧
    ((loadSection (some nanTable) TF.blank 0 1 (mk' (some 0) (some 3000000000))).1.out.map
      (fun c => energyForPowerSeries 10 c.rows)).sum = 0 := by
  have e1 : (loadSection (some nanTable) TF.blank 0 2 (mk' (some 0) (some 3000000000))).1.out.map
      Chunk.rows = [nanTable] := by decide +kernel
  have e2 : (loadSection (some nanTable) TF.blank 0 1 (mk' (some 0) (some 3000000000))).1.out.map
      Chunk.rows = [[(0, some 3600000), (1000000000, none)], [(1000000000, none), (2000000000, some 3600000)]] := by
    decide +kernel
  have f : ∀ l : List (Chunk (Option Rat)), l.map (fun c => energyForPowerSeries 10 c.rows) =
      (l.map Chunk.rows).map (energyForPowerSeries 10) := by intro l; simp
  rw [f, f, e1, e2]
  constructor <;>
    norm_num [nanTable, energyForPowerSeries, dropna, joules, toSecs, joulesPerKwh]

/-- C19 for a `cumulative energy` column: chunk differences telescope (shared rows not NaN). -/
theorem C19_cumulative_adds_up (c : Series) (cs : List Series) (h : Consecutive SharesReading (c :: cs))
    (t0 t1 : Int) (v0 v1 : Rat) (h0 : c.head? = some (t0, some v0))
    (h1 : ((c :: cs).getLast?.bind List.getLast?) = some (t1, some v1)) :
    ∃ ds : List Rat, (c :: cs).map lastMinusFirst = ds.map (fun d => .ok (some d)) ∧ ds.sum = v1 - v0 := by
  induction cs generalizing c t0 v0 with
  | nil =>
    simp only [List.getLast?_singleton, Option.bind_some] at h1
    exact ⟨[v1 - v0], by simp [lastMinusFirst, h0, h1], by simp⟩
  | cons d ds ih =>
    cases h with
    | cons _ _ _ hr hrest =>
      obtain ⟨t, v, g1, g2⟩ := hr
      rw [List.getLast?_cons_cons] at h1
      obtain ⟨es, e1, e2⟩ := ih d hrest t v g2 h1
      refine ⟨(v - v0) :: es, ?_, ?_⟩
      · rw [List.map_cons, e1]; simp [lastMinusFirst, h0, g1]
      · rw [List.sum_cons, e2]; ring

/-- C19, negation for an `energy` column: `series.sum()` counts the row shared by two chunks twice,
so the total depends on the chunk size. -/
theorem C19_energy_column_counterexample :
    let table : Series := [(0, some 1), (10, some 1), (20, some 1)]
    ((loadSection (some table) TF.blank 0 2 (mk' (some 0) (some 30))).1.out.map
      (fun c => seriesSum c.rows)).sum = 3 ∧
    ((loadSection (some table) TF.blank 0 1 (mk' (some 0) (some 30))).1.out.map
      (fun c => seriesSum c.rows)).sum = 4 := by
  intro table
  have e1 : (loadSection (some table) TF.blank 0 2 (mk' (some 0) (some 30))).1.out.map
      Chunk.rows = [table] := by decide +kernel
  have e2 : (loadSection (some table) TF.blank 0 1 (mk' (some 0) (some 30))).1.out.map
      Chunk.rows = [[(0, some 1), (10, some 1)], [(10, some 1), (20, some 1)]] := by
    decide +kernel
  have f : ∀ l : List (Chunk (Option Rat)), l.map (fun c => seriesSum c.rows) =
      (l.map Chunk.rows).map seriesSum := by intro l; simp
  rw [f, f, e1, e2]
  constructor <;> norm_num [table, seriesSum, dropna]

/-- Non-vacuity of C19: three chunks sharing readings. -/
example : Consecutive SharesReading
    [[(0, some 5), (10, none), (20, some 7)], [(20, some 7), (30, some 1)], [(30, some 1), (35, some 2)]] := by
  refine .cons _ _ _ ⟨20, 7, rfl, rfl⟩ (.cons _ _ _ ⟨30, 1, rfl, rfl⟩ (.single _))

/-! ### C20 -/

/-- Readings in time order. -/
def TimeOrdered (l : List (Row Rat)) : Prop := l.Pairwise (fun a b => a.1 ≤ b.1)

theorem toSecs_nonneg {d : Int} (h : 0 ≤ d) : 0 ≤ toSecs d := by
  unfold toSecs
  have : (0 : Rat) ≤ (d : Rat) := by exact_mod_cast h
  exact div_nonneg this (by norm_num)

theorem toSecs_add (a b : Int) : toSecs (a + b) = toSecs a + toSecs b := by
  unfold toSecs; push_cast; ring

theorem joules_nonneg (msp : Rat) (hm : 0 ≤ msp) (l : List (Row Rat)) (ho : TimeOrdered l)
    (hv : ∀ r ∈ l, 0 ≤ r.2) : 0 ≤ joules msp l := by
  induction l with
  | nil => simp [joules]
  | cons a l ih =>
    cases l with
    | nil => simp [joules]
    | cons b l =>
      have h1 := ih (List.pairwise_cons.1 ho).2 (fun r hr => hv r (List.mem_cons_of_mem _ hr))
      have h2 := (List.pairwise_cons.1 ho).1 b List.mem_cons_self
      have h3 : 0 ≤ min (toSecs (b.1 - a.1)) msp := le_min (toSecs_nonneg (by omega)) hm
      have h4 := hv a List.mem_cons_self
      rw [joules]
      have := mul_nonneg h3 h4
      linarith

theorem joules_le_duration (msp M : Rat) (hM : 0 ≤ M) (a : Row Rat) (l : List (Row Rat))
    (ho : TimeOrdered (a :: l)) (hv : ∀ r ∈ a :: l, r.2 ≤ M) (b : Row Rat) (hb : (a :: l).getLast? = some b) :
    joules msp (a :: l) ≤ M * toSecs (b.1 - a.1) ∨ msp < 0 := by
  rcases lt_or_ge msp 0 with hm | hm
  · right; exact hm
  left
  induction l generalizing a with
  | nil =>
    simp only [List.getLast?_singleton, Option.some.injEq] at hb
    subst hb; simp [joules, toSecs]
  | cons c l ih =>
    rw [List.getLast?_cons_cons] at hb
    have h1 := ih c (List.pairwise_cons.1 ho).2 (fun r hr => hv r (List.mem_cons_of_mem _ hr)) hb
    have h2 := (List.pairwise_cons.1 ho).1 c List.mem_cons_self
    have h3 : 0 ≤ min (toSecs (c.1 - a.1)) msp := le_min (toSecs_nonneg (by omega)) hm
    have h4 := hv a List.mem_cons_self
    have h5 : min (toSecs (c.1 - a.1)) msp ≤ toSecs (c.1 - a.1) := min_le_left _ _
    have h6 : toSecs (b.1 - a.1) = toSecs (c.1 - a.1) + toSecs (b.1 - c.1) := by
      rw [← toSecs_add]; congr 1; ring
    rw [joules, h6]
    nlinarith [mul_le_mul_of_nonneg_left h4 h3, mul_le_mul_of_nonneg_left h5 hM]

theorem joules_le_msp (msp : Rat) (l : List (Row Rat)) (hv : ∀ r ∈ l, 0 ≤ r.2) :
    joules msp l ≤ msp * ((l.dropLast.map Prod.snd).sum) := by
  induction l with
  | nil => simp [joules]
  | cons a l ih =>
    cases l with
    | nil => simp [joules]
    | cons b l =>
      have h1 := ih (fun r hr => hv r (List.mem_cons_of_mem _ hr))
      have h4 := hv a List.mem_cons_self
      have h5 : min (toSecs (b.1 - a.1)) msp ≤ msp := min_le_right _ _
      rw [joules, List.dropLast_cons_cons, List.map_cons, List.sum_cons]
      nlinarith [mul_le_mul_of_nonneg_right h5 h4]

theorem dropna_of_values (l : List (Row Rat)) : dropna (l.map (fun r => (r.1, some r.2))) = l := by
  induction l with
  | nil => rfl
  | cons a l ih => simp [dropna, ih]

theorem kwh_pos : (0 : Rat) < joulesPerKwh := by norm_num [joulesPerKwh]

/-- C20: non-negative power over time-ordered readings gives non-negative energy. -/
theorem C20_nonneg (msp : Rat) (hm : 0 ≤ msp) (s : Series) (ho : TimeOrdered (dropna s))
    (hv : ∀ r ∈ dropna s, 0 ≤ r.2) : 0 ≤ energyForPowerSeries msp s :=
  div_nonneg (joules_nonneg msp hm _ ho hv) kwh_pos.le

/-- C20: the energy is at most the maximal power times the time between first and last reading. -/
theorem C20_at_most_max_power_times_duration (msp M : Rat) (hm : 0 ≤ msp) (hM : 0 ≤ M) (s : Series)
    (ho : TimeOrdered (dropna s)) (hv : ∀ r ∈ dropna s, r.2 ≤ M) (a b : Row Rat)
    (ha : (dropna s).head? = some a) (hb : (dropna s).getLast? = some b) :
    energyForPowerSeries msp s * joulesPerKwh ≤ M * toSecs (b.1 - a.1) := by
  rw [energyForPowerSeries, div_mul_cancel₀ _ kwh_pos.ne']
  cases hl : dropna s with
  | nil => rw [hl] at ha; simp at ha
  | cons x l =>
    rw [hl] at ha hb ho hv
    simp only [List.head?_cons, Option.some.injEq] at ha
    subst ha
    rcases joules_le_duration msp M hM x l ho hv b hb with h | h
    · exact h
    · exact absurd h (not_lt.2 hm)

/-- C20: each reading but the last is credited at most `max_sample_period` seconds. -/
theorem C20_credit_limited (msp : Rat) (s : Series) (hv : ∀ r ∈ dropna s, 0 ≤ r.2) :
    energyForPowerSeries msp s * joulesPerKwh ≤ msp * (((dropna s).dropLast.map Prod.snd).sum) := by
  rw [energyForPowerSeries, div_mul_cancel₀ _ kwh_pos.ne']
  exact joules_le_msp msp _ hv

/-- C20: when no gap exceeds `max_sample_period`, energy is the exact sum of power × time. -/
theorem C20_exact_without_gaps (msp : Rat) (s : Series)
    (hg : Consecutive (fun a b : Row Rat => toSecs (b.1 - a.1) ≤ msp) (dropna s)) :
    energyForPowerSeries msp s * joulesPerKwh =
      (((dropna s).zip (dropna s).tail).map (fun ab => ab.1.2 * toSecs (ab.2.1 - ab.1.1))).sum := by
  rw [energyForPowerSeries, div_mul_cancel₀ _ kwh_pos.ne']
  generalize dropna s = l at hg
  induction hg with
  | nil => simp [joules]
  | single a => simp [joules]
  | cons a b l h _ ih =>
    rw [joules, ih, min_eq_left h]
    simp [mul_comm]

/-- C20: energy is monotone in the readings (same timestamps). -/
theorem C20_monotone_in_power (msp : Rat) (hm : 0 ≤ msp) (a b : List (Row Rat)) (ho : TimeOrdered a)
    (h : List.Forall₂ (fun x y : Row Rat => x.1 = y.1 ∧ x.2 ≤ y.2) a b) :
    energyForPowerSeries msp (a.map (fun r => (r.1, some r.2))) ≤
      energyForPowerSeries msp (b.map (fun r => (r.1, some r.2))) := by
  rw [energyForPowerSeries, energyForPowerSeries, dropna_of_values, dropna_of_values]
  apply div_le_div_of_nonneg_right _ kwh_pos.le
  induction h with
  | nil => exact le_refl _
  | cons hxy hl ih =>
    rename_i x y l m
    have ih := ih (List.pairwise_cons.1 ho).2
    cases hl with
    | nil => simp [joules]
    | cons hzw hl =>
      rename_i z w l' m' _
      have h2 := (List.pairwise_cons.1 ho).1 _ List.mem_cons_self
      have h3 : 0 ≤ min (toSecs (z.1 - x.1)) msp := le_min (toSecs_nonneg (by omega)) hm
      rw [joules, joules, ← hxy.1, ← hzw.1]
      have := mul_le_mul_of_nonneg_left hxy.2 h3
      linarith

/-- C20: energy is monotone in `max_sample_period`. -/
theorem C20_monotone_in_period (msp msp' : Rat) (hm : msp ≤ msp') (s : Series)
    (hv : ∀ r ∈ dropna s, 0 ≤ r.2) : energyForPowerSeries msp s ≤ energyForPowerSeries msp' s := by
  apply div_le_div_of_nonneg_right _ kwh_pos.le
  generalize dropna s = l at hv
  induction l with
  | nil => simp [joules]
  | cons a l ih =>
    have ih := ih (fun r hr => hv r (List.mem_cons_of_mem _ hr))
    cases l with
    | nil => simp [joules]
    | cons b l =>
      rw [joules, joules]
      have h1 : min (toSecs (b.1 - a.1)) msp ≤ min (toSecs (b.1 - a.1)) msp' := min_le_min_left _ hm
      have := mul_le_mul_of_nonneg_right h1 (hv a List.mem_cons_self)
      linarith

/-- C20: scaling every reading scales the energy. -/
theorem C20_linear (msp k : Rat) (s : Series) :
    energyForPowerSeries msp (s.map (fun r => (r.1, r.2.map (k * ·)))) = k * energyForPowerSeries msp s := by
  have h1 : dropna (s.map (fun r => (r.1, r.2.map (k * ·)))) = (dropna s).map (fun r => (r.1, k * r.2)) := by
    induction s with
    | nil => rfl
    | cons a l ih =>
      obtain ⟨t, v⟩ := a
      cases v <;> simp [dropna, ih]
  rw [energyForPowerSeries, h1, energyForPowerSeries, mul_div_assoc']
  congr 1
  generalize dropna s = l
  induction l with
  | nil => simp [joules]
  | cons a l ih =>
    cases l with
    | nil => simp [joules]
    | cons b l =>
      simp only [List.map_cons, joules] at ih ⊢
      rw [ih]; ring

/-- C20: fewer than two readings give no energy. -/
theorem C20_too_few_readings (msp : Rat) (s : Series) (h : (dropna s).length < 2) :
    energyForPowerSeries msp s = 0 := by
  match hl : dropna s with
  | [] => simp [energyForPowerSeries, hl, joules]
  | [_] => simp [energyForPowerSeries, hl, joules]
  | _ :: _ :: _ => rw [hl] at h; simp only [List.length_cons] at h; omega

/-- C20, units: constant power `P` watts recorded without gaps above `max_sample_period` seconds
from instant `a` to instant `b` (nanoseconds) is `P × (b - a) / (1000 × 3600 × 10⁹)` kWh. -/
theorem C20_constant_power (msp P : Rat) (ts : List Int) (a b : Int)
    (ha : ts.head? = some a) (hb : ts.getLast? = some b)
    (hg : Consecutive (fun x y : Int => ((y - x : Int) : Rat) ≤ msp * 10 ^ 9) ts) :
    energyForPowerSeries msp (ts.map (fun t => (t, some P))) =
      P * ((b - a : Int) : Rat) / (1000 * 3600 * 10 ^ 9) := by
  have h1 : dropna (ts.map (fun t => (t, some P))) = ts.map (fun t => (t, P)) := by
    clear ha hb hg
    induction ts with
    | nil => rfl
    | cons t l ih => simp [dropna, ih]
  have h2 : joules msp (ts.map (fun t => (t, P))) = P * ((b - a : Int) : Rat) / 10 ^ 9 := by
    clear h1
    induction hg generalizing a with
    | nil => simp at ha
    | single x =>
      simp only [List.head?_cons, List.getLast?_singleton, Option.some.injEq] at ha hb
      subst ha; subst hb; simp [joules]
    | cons x y l hxy _ ih =>
      simp only [List.head?_cons, Option.some.injEq] at ha
      subst ha
      rw [List.getLast?_cons_cons] at hb
      have := ih y rfl hb
      simp only [List.map_cons, joules] at this ⊢
      rw [this, min_eq_left]
      · unfold toSecs; push_cast; ring
      · unfold toSecs; rw [div_le_iff₀ (by norm_num)]
        have e : (10 : Rat) ^ 9 = 1000000000 := by norm_num
        rw [e] at hxy; exact hxy
  rw [energyForPowerSeries, h1, h2, joulesPerKwh]
  ring

/-- C20: NaN readings are ignored. -/
theorem C20_nan_rows_ignored (msp : Rat) (s : Series) :
    energyForPowerSeries msp (s.filter (fun r => r.2.isSome)) = energyForPowerSeries msp s := by
  have : dropna (s.filter (fun r => r.2.isSome)) = dropna s := by
    induction s with
    | nil => rfl
    | cons a l ih =>
      obtain ⟨t, v⟩ := a
      cases v <;> simp [dropna, ih]
  rw [energyForPowerSeries, this, energyForPowerSeries]

/-- Non-vacuity of C20: 1000 W for 1 s, then 2000 W for 100 s of which 10 s count. -/
example : let s : Series := [(0, some 1000), (1000000000, some 2000), (101000000000, some 5)]
    TimeOrdered (dropna s) ∧ (∀ r ∈ dropna s, 0 ≤ r.2) ∧ energyForPowerSeries 10 s = 21000 / 3600000 := by
  refine ⟨by simp [TimeOrdered, dropna], by simp [dropna], ?_⟩
  norm_num [energyForPowerSeries, dropna, joules, toSecs, joulesPerKwh]

/-! ### C21 -/

theorem energyLoop_ok (msp : Rat) (df : Frame) (cs : List (PQ × AC)) (E : List (AC × Option Rat))
    (h : energyLoop msp df cs = .ok E) :
    List.Forall₂ (fun c e => energyOfColumn msp df c = .ok e) cs E := by
  induction cs generalizing E with
  | nil => cases h; exact .nil
  | cons c cs ih =>
    rw [energyLoop] at h
    cases h1 : energyOfColumn msp df c with
    | error e => rw [h1] at h; cases h
    | ok x =>
      cases h2 : energyLoop msp df cs with
      | error e => rw [h1, h2] at h; cases h
      | ok l => rw [h1, h2] at h; cases h; exact .cons h1 (ih l h2)

theorem energyOfColumn_fst {msp : Rat} {df : Frame} {c : PQ × AC} {e : AC × Option Rat}
    (h : energyOfColumn msp df c = .ok e) : e.1 = c.2 := by
  obtain ⟨pq, ac⟩ := c
  cases pq <;> simp only [energyOfColumn] at h
  · cases h; rfl
  · cases h; rfl
  · cases hl : lastMinusFirst (df.col (.cumulativeEnergy, ac)) with
    | error e => rw [hl] at h; cases h
    | ok v => rw [hl] at h; cases h; rfl
  · cases h

theorem selected_mem (keys : List (PQ × AC)) (pq : PQ) (ac : AC) :
    (pq, ac) ∈ selectedColumns keys ↔ ac ∈ acTypes ∧
      pqPrefs.find? (fun q => (q, ac) ∈ keys) = some pq := by
  simp only [selectedColumns, List.mem_filterMap]
  have hk : ∀ a : AC, (fun pq => decide (pq ∈ (keys.filter (fun k => k.2 = a)).map Prod.fst)) =
      (fun q => decide ((q, a) ∈ keys)) := by
    intro a; funext q
    rw [decide_eq_decide, List.mem_map]
    constructor
    · rintro ⟨⟨x, y⟩, h, rfl⟩
      rw [List.mem_filter] at h
      simp only [decide_eq_true_eq] at h
      rw [← h.2]; exact h.1
    · intro h; exact ⟨(q, a), by simp [h], rfl⟩
  constructor
  · rintro ⟨a, ha, h⟩
    rw [hk, Option.map_eq_some_iff] at h
    obtain ⟨q, h1, h2⟩ := h
    cases h2
    exact ⟨ha, h1⟩
  · rintro ⟨ha, h⟩
    exact ⟨ac, ha, by rw [hk, h]; rfl⟩

/-- What `get_total_energy` must report for one AC type: the value derived from the preferred column. -/
def preferredEnergy (msp : Rat) (df : Frame) (ac : AC) : Option (Except Err (Option Rat)) :=
  if (PQ.cumulativeEnergy, ac) ∈ df.map Prod.fst then some (lastMinusFirst (df.col (.cumulativeEnergy, ac)))
  else if (PQ.energy, ac) ∈ df.map Prod.fst then some (.ok (some ((df.col (.energy, ac)).filterMap Prod.snd).sum))
  else if (PQ.power, ac) ∈ df.map Prod.fst then some (.ok (some (energyForPowerSeries msp (df.col (.power, ac)))))
  else none

theorem seriesSum_eq (s : Series) : seriesSum s = (s.filterMap Prod.snd).sum := by
  unfold seriesSum
  congr 1
  induction s with
  | nil => rfl
  | cons a l ih =>
    obtain ⟨t, v⟩ := a
    cases v <;> simp [dropna, ih]

theorem energyOfColumn_preferred (msp : Rat) (df : Frame) (pq : PQ) (ac : AC) (v : Option Rat)
    (h : pqPrefs.find? (fun q => (q, ac) ∈ df.map Prod.fst) = some pq) :
    (energyOfColumn msp df (pq, ac) = .ok (ac, v) ↔ preferredEnergy msp df ac = some (.ok v)) := by
  unfold preferredEnergy
  simp only [pqPrefs, List.find?_cons, List.find?_nil] at h
  by_cases h1 : (PQ.cumulativeEnergy, ac) ∈ df.map Prod.fst
  · simp only [h1, decide_true] at h
    cases h
    rw [if_pos h1]
    simp only [energyOfColumn]
    cases hl : lastMinusFirst (df.col (.cumulativeEnergy, ac)) with
    | error e => simp
    | ok w => simp
  · simp only [h1, decide_false] at h
    rw [if_neg h1]
    by_cases h2 : (PQ.energy, ac) ∈ df.map Prod.fst
    · simp only [h2, decide_true] at h
      cases h
      rw [if_pos h2]; simp [energyOfColumn, seriesSum_eq]
    · simp only [h2, decide_false] at h
      rw [if_neg h2]
      by_cases h3 : (PQ.power, ac) ∈ df.map Prod.fst
      · simp only [h3, decide_true] at h
        cases h
        rw [if_pos h3]; simp [energyOfColumn]
      · simp only [h3, decide_false] at h
        cases h

theorem find_none_iff (df : Frame) (ac : AC) (msp : Rat) :
    pqPrefs.find? (fun q => (q, ac) ∈ df.map Prod.fst) = none ↔ preferredEnergy msp df ac = none := by
  unfold preferredEnergy
  simp only [pqPrefs, List.find?_cons, List.find?_nil]
  by_cases h1 : (PQ.cumulativeEnergy, ac) ∈ df.map Prod.fst <;>
  by_cases h2 : (PQ.energy, ac) ∈ df.map Prod.fst <;>
  by_cases h3 : (PQ.power, ac) ∈ df.map Prod.fst <;> simp only [h1, h2, h3] <;> simp

/-- C21. When `get_total_energy` returns, its entry for an AC type is the value from the cumulative
energy column if present, else from the energy column, else from the power column; there is an
entry for no other AC type. -/
theorem C21_source_preference (msp : Rat) (df : Frame) (E : List (AC × Option Rat))
    (h : getTotalEnergy msp df = .ok E) (ac : AC) (v : Option Rat) :
    (ac, v) ∈ E ↔ (ac = .active ∨ ac = .apparent ∨ ac = .reactive) ∧ preferredEnergy msp df ac = some (.ok v) := by
  have hf := energyLoop_ok msp df _ E h
  have hac : (ac = .active ∨ ac = .apparent ∨ ac = .reactive) ↔ ac ∈ acTypes := by simp [acTypes]
  rw [hac]
  constructor
  · intro hm
    obtain ⟨c, hc, he⟩ := (List.forall₂_iff_get.1 hf |> fun ⟨hl, hg⟩ => by
      obtain ⟨i, hi, hie⟩ := List.mem_iff_getElem.1 hm
      exact ⟨(selectedColumns (df.map Prod.fst))[i]'(by omega), List.getElem_mem _, by
        have := hg i (by omega) hi
        simp only [List.get_eq_getElem] at this
        rw [hie] at this; exact this⟩ :
      ∃ c ∈ selectedColumns (df.map Prod.fst), energyOfColumn msp df c = .ok (ac, v))
    obtain ⟨pq, ac'⟩ := c
    have : ac = ac' := energyOfColumn_fst he
    subst this
    obtain ⟨h1, h2⟩ := (selected_mem _ _ _).1 hc
    exact ⟨h1, (energyOfColumn_preferred msp df pq ac v h2).1 he⟩
  · rintro ⟨ha, hv⟩
    cases hq : pqPrefs.find? (fun q => (q, ac) ∈ df.map Prod.fst) with
    | none => rw [(find_none_iff df ac msp).1 hq] at hv; cases hv
    | some pq =>
      have hc : (pq, ac) ∈ selectedColumns (df.map Prod.fst) := (selected_mem _ _ _).2 ⟨ha, hq⟩
      have he := (energyOfColumn_preferred msp df pq ac v hq).2 hv
      obtain ⟨hl, hg⟩ := List.forall₂_iff_get.1 hf
      obtain ⟨i, hi, hie⟩ := List.mem_iff_getElem.1 hc
      have := hg i hi (by omega)
      simp only [List.get_eq_getElem] at this
      rw [hie, he] at this
      rw [Except.ok.inj this]
      exact List.getElem_mem _

/-- C21: one entry per AC type, in the order of `AC_TYPES`. -/
theorem C21_one_entry_per_type (msp : Rat) (df : Frame) (E : List (AC × Option Rat))
    (h : getTotalEnergy msp df = .ok E) : (E.map Prod.fst).Sublist [.active, .apparent, .reactive] := by
  have hf := energyLoop_ok msp df _ E h
  have h1 : E.map Prod.fst = (selectedColumns (df.map Prod.fst)).map Prod.snd := by
    clear h
    generalize selectedColumns (df.map Prod.fst) = cs at hf
    induction hf with
    | nil => rfl
    | cons hce _ ih => simp [ih, energyOfColumn_fst hce]
  rw [h1]
  unfold selectedColumns
  change List.Sublist _ acTypes
  generalize acTypes = l
  induction l with
  | nil => simp
  | cons a l ih =>
    rw [List.filterMap_cons]
    split
    · exact ih.cons _
    · rename_i c hc
      rw [Option.map_eq_some_iff] at hc
      obtain ⟨pq, _, rfl⟩ := hc
      exact ih.cons_cons a

/-- C21, error branch: the only way to fail is an empty cumulative-energy column (`IndexError`). -/
theorem C21_fails_iff (msp : Rat) (df : Frame) :
    (∃ e, getTotalEnergy msp df = .error e) ↔
      ∃ ac ∈ [AC.active, .apparent, .reactive], (PQ.cumulativeEnergy, ac) ∈ df.map Prod.fst ∧ df.col (.cumulativeEnergy, ac) = [] := by
  have hcol : ∀ pq ac, (pq, ac) ∈ selectedColumns (df.map Prod.fst) →
      ((∃ e, energyOfColumn msp df (pq, ac) = .error e) ↔
        (pq = .cumulativeEnergy ∧ df.col (.cumulativeEnergy, ac) = [])) := by
    intro pq ac hc
    cases pq with
    | power => simp [energyOfColumn]
    | energy => simp [energyOfColumn]
    | cumulativeEnergy =>
      simp only [energyOfColumn]
      cases hs : df.col (.cumulativeEnergy, ac) with
      | nil => simp [lastMinusFirst]
      | cons a l =>
        have : ∃ w, lastMinusFirst (a :: l) = .ok w := by
          unfold lastMinusFirst
          rw [List.head?_cons]
          cases hl : (a :: l).getLast? with
          | none => simp at hl
          | some b =>
            simp only
            split <;> exact ⟨_, rfl⟩
        obtain ⟨w, hw⟩ := this
        rw [hw]; simp
    | other n =>
      obtain ⟨_, h2⟩ := (selected_mem _ _ _).1 hc
      have := List.mem_of_find?_eq_some h2
      simp [pqPrefs] at this
  have hloop : ∀ cs : List (PQ × AC), (∃ e, energyLoop msp df cs = .error e) ↔
      ∃ c ∈ cs, ∃ e, energyOfColumn msp df c = .error e := by
    intro cs
    induction cs with
    | nil => simp [energyLoop]
    | cons c cs ih =>
      rw [energyLoop]
      cases h1 : energyOfColumn msp df c with
      | error e => simp [h1]
      | ok x =>
        cases h2 : energyLoop msp df cs with
        | error e =>
          rw [h2] at ih
          have := ih.1 ⟨e, rfl⟩
          simp only [List.mem_cons, exists_eq_or_imp, h1]
          constructor
          · intro _; right; exact this
          · intro _; exact ⟨e, rfl⟩
        | ok l =>
          rw [h2] at ih
          simp only [List.mem_cons, exists_eq_or_imp, h1]
          constructor
          · rintro ⟨e, he⟩; cases he
          · rintro (⟨e, he⟩ | h)
            · cases he
            · obtain ⟨e, he⟩ := ih.2 h; cases he
  rw [getTotalEnergy, hloop]
  constructor
  · rintro ⟨⟨pq, ac⟩, hc, he⟩
    obtain ⟨rfl, h2⟩ := (hcol pq ac hc).1 he
    obtain ⟨h3, h4⟩ := (selected_mem _ _ _).1 hc
    exact ⟨ac, h3, by simpa using List.find?_some h4, h2⟩
  · rintro ⟨ac, ha, hm, he⟩
    have hc : (PQ.cumulativeEnergy, ac) ∈ selectedColumns (df.map Prod.fst) := by
      rw [selected_mem]
      refine ⟨ha, ?_⟩
      simp only [pqPrefs, List.find?_cons, hm, decide_true]
    exact ⟨_, hc, (hcol _ _ hc).2 ⟨rfl, he⟩⟩

/-- Non-vacuity of C21: active power and active energy present, apparent power only, no reactive. -/
example : getTotalEnergy 10 [((.power, .active), [(0, some 1), (10, some 2)]),
    ((.energy, .active), [(0, some 3), (10, some 4)]),
    ((.power, .apparent), [(0, some 3600000), (1000000000, none), (2000000000, some 1)]),
    ((.other 0, .other 0), [(0, some 230), (10, some 231)])] =
    .ok [(.active, some 7), (.apparent, some 2)] := by
  have h : selectedColumns ([(PQ.power, AC.active), (.energy, .active), (.power, .apparent), (.other 0, .other 0)]) =
    [(.energy, .active), (.power, .apparent)] := by decide
  rw [getTotalEnergy]
  simp only [List.map_cons, List.map_nil]
  rw [h]
  have e1 : ((PQ.energy, AC.active) == (PQ.power, AC.active)) = false := by decide
  have e2 : ((PQ.power, AC.apparent) == (PQ.power, AC.active)) = false := by decide
  have e3 : ((PQ.power, AC.apparent) == (PQ.energy, AC.active)) = false := by decide
  norm_num [energyLoop, energyOfColumn, Frame.col, seriesSum, dropna, energyForPowerSeries, joules, toSecs,
    joulesPerKwh, List.lookup, e1, e2, e3]

end Nilmtk
