import Verif.Model.Combine
import Verif.Props.Group
import Verif.Model.Measurement
import Mathlib.Data.List.Nodup
import Mathlib.Data.List.GetD
import Mathlib.Algebra.BigOperators.Group.List.Basic
import Mathlib.Tactic.Linarith
import Mathlib.Tactic.FieldSimp
/-!
C51: the readings of a group are sums (or means) of the readings of its meters.
-/
namespace Nilmtk
open TF

/-! ### Specification -/

/-- The chunks that count: those that are there, have rows, columns and a time frame. -/
def contributing (meters : List (Option GChunk)) : List GChunk :=
  meters.filterMap (fun m => m.filter (fun c => !c.rows.isEmpty && !c.cols.isEmpty && c.timeframe.isSome))

/-- The readings of a chunk in a column at a timestamp, without NaN (at most one in a well-formed chunk). -/
def available (c : GChunk) (col : ColName) (t : Int) : List Rat :=
  (c.rows.filter (fun r => decide (r.1 = t))).flatMap
    (fun r => ((c.cols.zip r.2).filter (fun p => decide (p.1 = col))).filterMap Prod.snd)

/-- All the readings that the group has in a column at a timestamp. -/
def groupReadings (meters : List (Option GChunk)) (col : ColName) (t : Int) : List Rat :=
  (contributing meters).flatMap (fun c => available c col t)

/-- The number of meters with a column of this quantity and a row at this timestamp. -/
def rowsAt (meters : List (Option GChunk)) (q : String) (t : Int) : Nat :=
  (contributing meters).countP (fun c => (c.cols.any (fun x => decide (x.1 = q))) && c.rows.any (fun r => decide (r.1 = t)))

/-- A chunk as pandas makes it: no repeated timestamp or column, every row as long as the columns. -/
def WFChunk (c : GChunk) : Prop :=
  (c.rows.map Prod.fst).Nodup ∧ c.cols.Nodup ∧ ∀ r ∈ c.rows, r.2.length = c.cols.length

/-- The value that a quantity to be summed should have. -/
def sumOf (rs : List Rat) : Option Rat := if rs = [] then none else some rs.sum

/-- The value that a quantity to be averaged is given: the sum of the readings over the number of meters with a row. -/
def meanOver (n : Nat) (rs : List Rat) : Option Rat := if rs = [] then none else some (rs.sum / n)

/-! ### Lemmas -/

theorem zip_filter_idx (col : ColName) : ∀ (cols : List ColName) (vs : List (Option Rat)), cols.Nodup →
    vs.length = cols.length →
    ((cols.zip vs).filter (fun p => decide (p.1 = col))).filterMap Prod.snd =
      if col ∈ cols then (vs.getD (cols.idxOf col) none).toList else [] := by
  intro cols
  induction cols with
  | nil => intro vs _ _; simp
  | cons a cols ih =>
    intro vs hn hl
    cases vs with
    | nil => simp at hl
    | cons v vs =>
      rw [List.nodup_cons] at hn
      by_cases h : a = col
      · subst h
        have hr := ih vs hn.2 (by simpa using hl)
        rw [if_neg hn.1] at hr
        simp only [List.zip_cons_cons, List.filter_cons, decide_true, if_true, List.filterMap_cons, hr, List.mem_cons, true_or,
          List.idxOf_cons_self, List.getD_cons_zero]
        cases v <;> simp
      · have hr := ih vs hn.2 (by simpa using hl)
        simp only [List.zip_cons_cons, List.filter_cons, h, decide_false, Bool.false_eq_true, if_false, hr, List.mem_cons,
          Ne.symm h, false_or]
        rw [List.idxOf_cons_ne _ h, List.getD_cons_succ]

theorem available_eq (c : GChunk) (h : WFChunk c) (col : ColName) (t : Int) :
    available c col t = if col ∈ c.cols then (c.reading col t).toList else [] := by
  obtain ⟨h1, h2, h3⟩ := h
  unfold available GChunk.reading
  generalize c.rows = rows at *
  induction rows with
  | nil => simp
  | cons r rows ih =>
    simp only [List.map_cons, List.nodup_cons] at h1
    have ih := ih h1.2 (fun r' hr' => h3 r' (by simp [hr']))
    by_cases ht : r.1 = t
    · have hno : rows.filter (fun r => decide (r.1 = t)) = [] := by
        rw [List.filter_eq_nil_iff]
        intro r' hr' he
        simp only [decide_eq_true_eq] at he
        exact h1.1 (List.mem_map.2 ⟨r', hr', he.trans ht.symm⟩)
      simp only [List.filter_cons, ht, decide_true, if_true, hno, List.flatMap_cons, List.flatMap_nil, List.append_nil,
        List.find?_cons, beq_self_eq_true]
      exact zip_filter_idx col c.cols r.2 h2 (h3 r (by simp))
    · simp only [List.filter_cons, ht, decide_false, Bool.false_eq_true, if_false, List.find?_cons,
        show (r.1 == t) = false by simpa using ht]
      exact ih

theorem addNan_sumOf (l : List Rat) (x : Option Rat) : addNan (sumOf l) x = sumOf (l ++ x.toList) := by
  unfold sumOf
  cases x with
  | none => by_cases h : l = [] <;> simp [h, addNan]
  | some v => by_cases h : l = [] <;> simp [h, addNan]

theorem addColumns_spec (index : List Int) (c : GChunk) (hc : WFChunk c) (v : ColName → Int → List Rat) :
    ∀ columns : List ColName, addColumns index c columns (columns.map (fun col => index.map (fun t => sumOf (v col t)))) =
      .ok (columns.map (fun col => index.map (fun t => sumOf (v col t ++ available c col t)))) := by
  intro columns
  induction columns with
  | nil => simp [addColumns]
  | cons col columns ih =>
    simp only [List.map_cons, addColumns, ih]
    by_cases h : col ∈ c.cols
    · simp only [List.contains_iff_mem, h, if_true, hc.1]
      congr 2
      rw [List.zipWith_map, List.zipWith_self]
      apply List.map_congr_left
      intro t _
      rw [addNan_sumOf, available_eq c hc, if_pos h]
    · simp only [List.contains_iff_mem, h, if_false]
      congr 2
      apply List.map_congr_left
      intro t _
      rw [available_eq c hc, if_neg h, List.append_nil]

theorem mem_columnsToAverage (c : GChunk) (q : String) :
    q ∈ columnsToAverage c ↔ q ∈ quantitiesToAverage ∧ ∃ x ∈ c.cols, x.1 = q := by
  simp only [columnsToAverage, List.mem_filter, List.contains_iff_mem, List.mem_map]

/-- The invariant of the loop after the meters `done`. -/
structure CInv (index : List Int) (columns : List ColName) (done : List (Option GChunk)) (st : CState) : Prop where
  cum : st.cum = columns.map (fun col => index.map (fun t => sumOf (groupReadings done col t)))
  cols : ∀ q, q ∈ st.counter.cols ↔ q ∈ quantitiesToAverage ∧ ∃ c ∈ contributing done, ∃ x ∈ c.cols, x.1 = q
  cell : ∀ q t, q ∈ quantitiesToAverage → (st.counter.cell q t).getD 0 = rowsAt done q t ∧
    (st.counter.cell q t = none ↔ rowsAt done q t = 0)
  frames : st.timeframe = none ↔ contributing done = []

theorem contributing_append (a b : List (Option GChunk)) : contributing (a ++ b) = contributing a ++ contributing b := by
  simp [contributing]

theorem contributing_single (c : GChunk) (tf : TF) (h1 : ¬ (c.rows = [] ∨ c.cols = [])) (h2 : c.timeframe = some tf) :
    contributing [some c] = [c] := by
  rw [not_or] at h1
  simp [contributing, Option.filter, h1.1, h1.2, h2]

theorem rowsAt_append (a b : List (Option GChunk)) (q : String) (t : Int) :
    rowsAt (a ++ b) q t = rowsAt a q t + rowsAt b q t := by
  simp [rowsAt, contributing_append]

theorem combine_step_skip (index : List Int) (columns : List ColName) (done : List (Option GChunk)) (st : CState)
    (m : Option GChunk) (h : CInv index columns done st) (hm : contributing [m] = []) : CInv index columns (done ++ [m]) st := by
  have e : contributing (done ++ [m]) = contributing done := by rw [contributing_append, hm, List.append_nil]
  refine ⟨?_, ?_, ?_, ?_⟩
  · simpa only [groupReadings, e] using h.cum
  · simpa only [e] using h.cols
  · simpa only [rowsAt, e] using h.cell
  · simpa only [e] using h.frames

theorem combine_step_inv (index : List Int) (columns : List ColName) (done : List (Option GChunk)) (st st' : CState)
    (m : Option GChunk) (h : CInv index columns done st) (hw : ∀ c, m = some c → WFChunk c)
    (hs : combineStep index columns st m = .ok st') : CInv index columns (done ++ [m]) st' := by
  cases m with
  | none =>
    simp only [combineStep, Except.ok.injEq] at hs
    subst hs
    exact combine_step_skip _ _ _ _ _ h (by simp [contributing])
  | some c =>
    simp only [combineStep] at hs
    split at hs
    · rename_i he
      cases hs
      refine combine_step_skip _ _ _ _ _ h ?_
      rcases he with he | he <;> simp [contributing, Option.filter, he]
    · rename_i he
      split at hs
      · rename_i ht
        cases hs
        refine combine_step_skip _ _ _ _ _ h ?_
        simp [contributing, Option.filter, ht]
      · rename_i tf ht
        split at hs
        · cases hs
        · rename_i tf' _
          rw [h.cum, addColumns_spec index c (hw c rfl)] at hs
          simp only [Except.ok.injEq] at hs
          subst hs
          have hc := contributing_single c tf he ht
          have e : contributing (done ++ [some c]) = contributing done ++ [c] := by rw [contributing_append, hc]
          refine ⟨?_, ?_, ?_, ?_⟩
          · simp only [groupReadings, e, List.flatMap_append, List.flatMap_cons, List.flatMap_nil, List.append_nil]
          · intro q
            simp only [updateCounter, List.mem_append, List.mem_filter, h.cols, mem_columnsToAverage, e, List.mem_singleton,
              Bool.not_eq_true', List.contains_eq_mem, decide_eq_false_iff_not]
            constructor
            · rintro (⟨hq, c', hc', hx⟩ | ⟨⟨hq, hx⟩, -⟩)
              · exact ⟨hq, c', Or.inl hc', hx⟩
              · exact ⟨hq, c, Or.inr rfl, hx⟩
            · rintro ⟨hq, c', hc' | rfl, hx⟩
              · exact Or.inl ⟨hq, c', hc', hx⟩
              · by_cases hold : ∃ c ∈ contributing done, ∃ x ∈ c.cols, x.1 = q
                · exact Or.inl ⟨hq, hold⟩
                · exact Or.inr ⟨⟨hq, hx⟩, fun hh => hold hh.2⟩
          · intro q t hq
            obtain ⟨a, b⟩ := h.cell q t hq
            have hinc : ((columnsToAverage c).contains q && (c.rows.map Prod.fst).contains t) =
                ((c.cols.any (fun x => decide (x.1 = q))) && c.rows.any (fun r => decide (r.1 = t))) := by
              rw [Bool.eq_iff_iff]
              simp only [Bool.and_eq_true, List.contains_iff_mem, mem_columnsToAverage, hq, true_and, List.any_eq_true,
                decide_eq_true_eq, List.mem_map]
            have hone : rowsAt [some c] q t =
                if ((c.cols.any (fun x => decide (x.1 = q))) && c.rows.any (fun r => decide (r.1 = t))) then 1 else 0 := by
              unfold rowsAt
              rw [hc, List.countP_cons, List.countP_nil, Nat.zero_add]
            rw [rowsAt_append, hone]
            simp only [updateCounter, hinc]
            generalize ((c.cols.any (fun x => decide (x.1 = q))) && c.rows.any (fun r => decide (r.1 = t))) = B
            cases hk : st.counter.cell q t with
            | none =>
              have h0 := b.1 hk
              cases B <;> simp [h0]
            | some n =>
              rw [hk] at a b
              have hn : n = rowsAt done q t := by simpa using a
              have hpos : rowsAt done q t ≠ 0 := fun h0 => by simpa using b.2 h0
              cases B <;> simp [hn, hpos]
          · simp [e]

theorem combine_loop_inv (index : List Int) (columns : List ColName) (ms : List (Option GChunk)) : ∀ done st st',
    CInv index columns done st → (∀ c, some c ∈ ms → WFChunk c) → combineMeters index columns st ms = .ok st' →
    CInv index columns (done ++ ms) st' := by
  induction ms with
  | nil =>
    intro done st st' h _ hs
    simp only [combineMeters, Except.ok.injEq] at hs
    subst hs
    simpa using h
  | cons m ms ih =>
    intro done st st' h hw hs
    unfold combineMeters at hs
    split at hs
    · cases hs
    · rename_i st1 h1
      have := ih (done ++ [m]) st1 st' (combine_step_inv _ _ _ _ _ _ h (fun c hc => hw c (by simp [hc])) h1)
        (fun c hc => hw c (by simp [hc])) hs
      simpa using this

theorem combine_init_inv (index : List Int) (columns : List ColName) : CInv index columns []
    ⟨columns.map (fun _ => index.map (fun _ => none)), ⟨[], fun _ _ => none⟩, none⟩ := by
  refine ⟨?_, ?_, ?_, ?_⟩
  · simp [groupReadings, contributing, sumOf]
  · simp [contributing]
  · simp [rowsAt, contributing]
  · simp [contributing]

theorem combine_inv {index : List Int} {columns : List ColName} {meters : List (Option GChunk)}
    {cells : List (List (Option Rat))} {tf : Option TF} (hw : ∀ c, some c ∈ meters → WFChunk c)
    (h : combineChunks index columns meters = .ok (cells, tf)) : ∃ st, CInv index columns meters st ∧
      combineMeters index columns ⟨columns.map (fun _ => index.map (fun _ => none)), ⟨[], fun _ _ => none⟩, none⟩ meters =
        .ok st ∧ divideColumns index columns st = .ok cells ∧ st.timeframe = tf := by
  unfold combineChunks at h
  split at h
  · cases h
  · rename_i st hst
    split at h
    · cases h
    · rename_i cells' hd
      simp only [Except.ok.injEq, Prod.mk.injEq] at h
      obtain ⟨rfl, rfl⟩ := h
      exact ⟨st, by simpa using combine_loop_inv index columns meters [] _ _ (combine_init_inv index columns) hw hst, hst, hd, rfl⟩

/-! ### Theorems -/

/-- What the group's data are, cell by cell: for a quantity to be summed the sum of the available readings, NaN exactly
when there are none; for a quantity to be averaged that sum divided by the number of meters with a row there. -/
theorem C51_cells (index : List Int) (columns : List ColName) (meters : List (Option GChunk))
    (cells : List (List (Option Rat))) (tf : Option TF) (hw : ∀ c, some c ∈ meters → WFChunk c)
    (h : combineChunks index columns meters = .ok (cells, tf)) :
    cells = columns.map (fun col => index.map (fun t =>
      if col.1 ∈ ["voltage", "pf", "frequency", "power factor", "phase_angle"] then
        meanOver (rowsAt meters col.1 t) (groupReadings meters col t)
      else sumOf (groupReadings meters col t))) := by
  obtain ⟨st, inv, -, hd, -⟩ := combine_inv hw h
  unfold divideColumns at hd
  split at hd
  · cases hd
  · simp only [Except.ok.injEq] at hd
    rw [← hd, inv.cum, List.zipWith_map_right, List.zipWith_self]
    apply List.map_congr_left
    intro col _
    by_cases hq : col.1 ∈ quantitiesToAverage
    · have hq' : col.1 ∈ ["voltage", "pf", "frequency", "power factor", "phase_angle"] := hq
      simp only [hq', if_true]
      by_cases hin : col.1 ∈ st.counter.cols
      · simp only [List.contains_iff_mem, hin, if_true]
        rw [List.zipWith_map_left, List.zipWith_self]
        apply List.map_congr_left
        intro t _
        obtain ⟨a, b⟩ := inv.cell col.1 t hq
        cases hk : st.counter.cell col.1 t with
        | none =>
          have h0 := b.1 hk
          have : groupReadings meters col t = [] := by
            rw [groupReadings, List.flatMap_eq_nil_iff]
            intro c hc
            unfold rowsAt at h0
            rw [List.countP_eq_zero] at h0
            have := h0 c hc
            unfold available
            rw [List.flatMap_eq_nil_iff]
            intro r hr
            rw [List.mem_filter, decide_eq_true_eq] at hr
            rw [List.filterMap_eq_nil_iff]
            intro p hp
            rw [List.mem_filter, decide_eq_true_eq] at hp
            exfalso
            apply this
            rw [Bool.and_eq_true, List.any_eq_true, List.any_eq_true]
            refine ⟨⟨p.1, (List.of_mem_zip hp.1).1, by rw [hp.2]; simp⟩, ⟨r, hr.1, by simp [hr.2]⟩⟩
          simp [this, sumOf, meanOver, divCell]
        | some n =>
          rw [hk] at a
          simp only [Option.getD_some] at a
          unfold sumOf meanOver
          by_cases he : groupReadings meters col t = []
          · simp [he, divCell]
          · simp [he, divCell, a]
      · simp only [List.contains_iff_mem, hin, if_false]
        apply List.map_congr_left
        intro t _
        have : groupReadings meters col t = [] := by
          rw [groupReadings, List.flatMap_eq_nil_iff]
          intro c hc
          unfold available
          rw [List.flatMap_eq_nil_iff]
          intro r hr
          rw [List.filterMap_eq_nil_iff]
          intro p hp
          rw [List.mem_filter, decide_eq_true_eq] at hp
          exact absurd ((inv.cols col.1).2 ⟨hq, c, hc, p.1, (List.of_mem_zip hp.1).1, by rw [hp.2]⟩) hin
        simp [this, sumOf, meanOver]
    · have hq' : ¬ col.1 ∈ ["voltage", "pf", "frequency", "power factor", "phase_angle"] := hq
      have hin : col.1 ∉ st.counter.cols := fun hh => hq ((inv.cols col.1).1 hh).1
      simp only [List.contains_iff_mem, hin, if_false, hq']

/-- Power (and every quantity that is not averaged): the group's reading is the sum of the meters' readings, and NaN
exactly when no meter has a reading. -/
theorem C51_power_is_sum (index : List Int) (columns : List ColName) (meters : List (Option GChunk))
    (cells : List (List (Option Rat))) (tf : Option TF) (hw : ∀ c, some c ∈ meters → WFChunk c)
    (h : combineChunks index columns meters = .ok (cells, tf)) (i j : Nat) (col : ColName) (t : Int)
    (hi : columns[i]? = some col) (hj : index[j]? = some t)
    (hq : col.1 ∉ ["voltage", "pf", "frequency", "power factor", "phase_angle"]) :
    ∃ x, (cells[i]?.bind (fun cs => cs[j]?)) = some x ∧
      (x = none ↔ ∀ c ∈ contributing meters, available c col t = []) ∧
      ∀ v, x = some v → v = (((contributing meters).map (fun c => (available c col t).sum))).sum := by
  rw [C51_cells index columns meters cells tf hw h]
  refine ⟨sumOf (groupReadings meters col t), ?_, ?_, ?_⟩
  · simp only [List.getElem?_map, hi, Option.map_some, Option.bind_some, hj, if_neg hq]
  · unfold sumOf groupReadings
    split
    · rename_i he; simp only [true_iff]; exact List.flatMap_eq_nil_iff.1 he
    · rename_i he; simp only [reduceCtorEq, false_iff]; exact fun hh => he (List.flatMap_eq_nil_iff.2 hh)
  · intro v hv
    unfold sumOf at hv
    split at hv
    · cases hv
    · simp only [Option.some.injEq] at hv
      rw [← hv, groupReadings, List.flatMap, List.sum_flatten, List.map_map]
      rfl

theorem contributing_perm {a b : List (Option GChunk)} (h : a.Perm b) : (contributing a).Perm (contributing b) :=
  h.filterMap _

theorem groupReadings_perm {a b : List (Option GChunk)} (h : a.Perm b) (col : ColName) (t : Int) :
    (groupReadings a col t).Perm (groupReadings b col t) := List.Perm.flatMap_right _ (contributing_perm h)

/-- The order of the meters does not matter. -/
theorem C51_order (index : List Int) (columns : List ColName) (a b : List (Option GChunk))
    (ca cb : List (List (Option Rat))) (ta tb : Option TF) (hp : a.Perm b) (hw : ∀ c, some c ∈ a → WFChunk c)
    (ha : combineChunks index columns a = .ok (ca, ta)) (hb : combineChunks index columns b = .ok (cb, tb)) : ca = cb := by
  rw [C51_cells index columns a ca ta hw ha,
    C51_cells index columns b cb tb (fun c hc => hw c (hp.mem_iff.2 hc)) hb]
  apply List.map_congr_left
  intro col _
  apply List.map_congr_left
  intro t _
  have h1 := groupReadings_perm hp col t
  have h2 : rowsAt a col.1 t = rowsAt b col.1 t := (contributing_perm hp).countP_eq _
  have h3 : groupReadings a col t = [] ↔ groupReadings b col t = [] := by
    constructor
    · intro h; rw [h] at h1; exact h1.nil_eq.symm
    · intro h; rw [h] at h1; exact h1.eq_nil
  simp only [sumOf, meanOver, h2, h1.sum_eq, h3]

theorem available_of_row (c : GChunk) (hw : WFChunk c) (col : ColName) (t : Int) (hcol : col ∈ c.cols)
    (hrow : ∃ r ∈ c.rows, r.1 = t) (hfull : ∀ r ∈ c.rows, r.1 = t → none ∉ r.2) : (available c col t).length = 1 := by
  rw [available_eq c hw, if_pos hcol]
  obtain ⟨r0, hr0, ht0⟩ := hrow
  unfold GChunk.reading
  cases hf : c.rows.find? (fun r => r.1 == t) with
  | none =>
    rw [List.find?_eq_none] at hf
    exact absurd ht0 (by simpa using hf r0 hr0)
  | some r =>
    have hm := List.mem_of_find?_eq_some hf
    have ht : r.1 = t := by simpa using List.find?_some hf
    have hlt : c.cols.idxOf col < r.2.length := by rw [hw.2.2 r hm]; exact List.idxOf_lt_length_iff.2 hcol
    simp only
    rw [List.getD_eq_getElem _ _ hlt]
    cases hv : r.2[c.cols.idxOf col] with
    | none => exact absurd (hv ▸ List.getElem_mem hlt) (hfull r hm ht)
    | some v => simp

/-- Averaged quantities: when the rows at a timestamp have no NaN and every column of the quantity is the requested one,
the group's reading is the mean of the meters' readings. Missing: rows that are present but NaN, see
`C51_mean_counterexample`. -/
theorem C51_mean_partial (index : List Int) (columns : List ColName) (meters : List (Option GChunk))
    (cells : List (List (Option Rat))) (tf : Option TF) (hw : ∀ c, some c ∈ meters → WFChunk c)
    (h : combineChunks index columns meters = .ok (cells, tf)) (i j : Nat) (col : ColName) (t : Int)
    (hi : columns[i]? = some col) (hj : index[j]? = some t)
    (hq : col.1 ∈ ["voltage", "pf", "frequency", "power factor", "phase_angle"])
    (hone : ∀ c, some c ∈ meters → ∀ x ∈ c.cols, x.1 = col.1 → x = col)
    (hfull : ∀ c, some c ∈ meters → ∀ r ∈ c.rows, r.1 = t → none ∉ r.2) :
    ∃ x, (cells[i]?.bind (fun cs => cs[j]?)) = some x ∧
      x = if groupReadings meters col t = [] then none
        else some ((groupReadings meters col t).sum / (groupReadings meters col t).length) := by
  rw [C51_cells index columns meters cells tf hw h]
  refine ⟨meanOver (rowsAt meters col.1 t) (groupReadings meters col t), ?_, ?_⟩
  · simp only [List.getElem?_map, hi, Option.map_some, Option.bind_some, hj, if_pos hq]
  · unfold meanOver
    congr 3
    have hcm : ∀ c ∈ contributing meters, some c ∈ meters := by
      intro c hc
      obtain ⟨m, hm, hf⟩ := List.mem_filterMap.1 hc
      cases m with
      | none => simp at hf
      | some c' =>
        rw [Option.filter] at hf
        split at hf
        · cases hf; exact hm
        · cases hf
    congr 1
    unfold rowsAt groupReadings
    rw [List.length_flatMap]
    generalize hL : contributing meters = L at hcm
    clear hL
    induction L with
    | nil => simp
    | cons c L ih =>
      rw [List.countP_cons, List.map_cons, List.sum_cons, ih (fun c hc => hcm c (by simp [hc])), Nat.add_comm]
      congr 1
      have hc := hcm c (by simp)
      split
      · rename_i hb
        rw [Bool.and_eq_true, List.any_eq_true, List.any_eq_true] at hb
        obtain ⟨⟨x, hx, hxq⟩, r, hr, hrt⟩ := hb
        rw [decide_eq_true_eq] at hxq hrt
        have := hone c hc x hx hxq
        subst this
        exact (available_of_row c (hw c hc) x t hx ⟨r, hr, hrt⟩ (hfull c hc)).symm
      · rename_i hb
        symm
        rw [List.length_eq_zero_iff]
        unfold available
        rw [List.flatMap_eq_nil_iff]
        intro r hr
        rw [List.mem_filter, decide_eq_true_eq] at hr
        rw [List.filterMap_eq_nil_iff]
        intro p hp
        rw [List.mem_filter, decide_eq_true_eq] at hp
        exfalso
        apply hb
        rw [Bool.and_eq_true, List.any_eq_true, List.any_eq_true]
        exact ⟨⟨p.1, (List.of_mem_zip hp.1).1, by rw [hp.2]; simp⟩, ⟨r, hr.1, by simp [hr.2]⟩⟩

/-- Two voltmeters, the second with a row that is NaN: the group reports 115 V for the only reading of 230 V. -/
theorem C51_mean_counterexample :
    ∃ (meters : List (Option GChunk)) (t : Int) (tf : Option TF), (∀ c, some c ∈ meters → WFChunk c) ∧
      groupReadings meters ("voltage", "") t = [230] ∧
      combineChunks [t] [("voltage", "")] meters = .ok ([[some 115]], tf) := by
  refine ⟨[some ⟨[("voltage", "")], [(0, [some 230])], some (TF.mk' (some 0) (some 1))⟩,
    some ⟨[("voltage", "")], [(0, [none])], some (TF.mk' (some 0) (some 1))⟩], 0,
    some (TF.mk' (some 0) (some 1)), ?_, ?_, ?_⟩
  · intro c hc
    simp only [List.mem_cons, Option.some.injEq, List.not_mem_nil, or_false] at hc
    rcases hc with rfl | rfl <;> exact ⟨by simp, by simp, by simp⟩
  · decide +kernel
  · decide +kernel

/-- `phase angle` is a known quantity, but the list of quantities to average spells it `phase_angle`: the phase angles of
the meters are added up. -/
theorem C51_phase_angle_counterexample :
    ∃ (meters : List (Option GChunk)) (t : Int) (tf : Option TF), (∀ c, some c ∈ meters → WFChunk c) ∧
      groupReadings meters ("phase angle", "") t = [30, 30] ∧
      measurementColumns [("phase angle", "")] = .ok [("phase angle", "")] ∧
      combineChunks [t] [("phase angle", "")] meters = .ok ([[some 60]], tf) := by
  refine ⟨[some ⟨[("phase angle", "")], [(0, [some 30])], some (TF.mk' (some 0) (some 1))⟩,
    some ⟨[("phase angle", "")], [(0, [some 30])], some (TF.mk' (some 0) (some 1))⟩], 0,
    some (TF.mk' (some 0) (some 1)), ?_, ?_, ?_, ?_⟩
  · intro c hc
    simp only [List.mem_cons, Option.some.injEq, List.not_mem_nil, or_false] at hc
    rcases hc with rfl | rfl <;> exact ⟨by simp, by simp, by simp⟩
  · decide +kernel
  · decide +kernel
  · decide +kernel

/-- Loading succeeds when the contributing meters have bounded time frames and every averaged quantity they bring was
asked for; the group's time frame is then the smallest frame around theirs. -/
theorem C51_succeeds (index : List Int) (columns : List ColName) (meters : List (Option GChunk))
    (hw : ∀ c, some c ∈ meters → WFChunk c)
    (hb : ∀ c ∈ contributing meters, ∃ f s e, c.timeframe = some f ∧ Bounded f s e)
    (hc : ∀ c ∈ contributing meters, ∀ x ∈ c.cols, x.1 ∈ ["voltage", "pf", "frequency", "power factor", "phase_angle"] →
      ∃ col ∈ columns, col.1 = x.1) :
    ∃ cells tf, combineChunks index columns meters = .ok (cells, tf) ∧
      (tf = none ↔ contributing meters = []) ∧
      ∀ f, tf = some f → ∃ s e, Bounded f s e ∧
        (∀ c ∈ contributing meters, ∀ g, c.timeframe = some g → ∃ s' e', g.start = some s' ∧ g.stop = some e' ∧ s ≤ s' ∧ e' ≤ e) ∧
        (∃ c ∈ contributing meters, ∃ g, c.timeframe = some g ∧ g.start = some s) ∧
        (∃ c ∈ contributing meters, ∃ g, c.timeframe = some g ∧ g.stop = some e) := by
  -- the hull property of the accumulated time frame
  let Hull (done : List (Option GChunk)) (tf : Option TF) : Prop := ∀ f, tf = some f → ∃ s e, Bounded f s e ∧
        (∀ c ∈ contributing done, ∀ g, c.timeframe = some g → ∃ s' e', g.start = some s' ∧ g.stop = some e' ∧ s ≤ s' ∧ e' ≤ e) ∧
        (∃ c ∈ contributing done, ∃ g, c.timeframe = some g ∧ g.start = some s) ∧
        (∃ c ∈ contributing done, ∃ g, c.timeframe = some g ∧ g.stop = some e)
  have loop : ∀ (ms done : List (Option GChunk)) (st : CState), CInv index columns done st → Hull done st.timeframe →
      (∀ c, some c ∈ ms → WFChunk c) → (∀ c ∈ contributing ms, ∃ f s e, c.timeframe = some f ∧ Bounded f s e) →
      ∃ st', combineMeters index columns st ms = .ok st' ∧ CInv index columns (done ++ ms) st' ∧ Hull (done ++ ms) st'.timeframe := by
    intro ms
    induction ms with
    | nil => intro done st h1 h2 _ _; exact ⟨st, rfl, by simpa using h1, by simpa using h2⟩
    | cons m ms ih =>
      intro done st h1 h2 hw hb
      have hbt : ∀ c ∈ contributing ms, ∃ f s e, c.timeframe = some f ∧ Bounded f s e := fun c hc => hb c (by
        rw [show m :: ms = [m] ++ ms from rfl, contributing_append]; exact List.mem_append_right _ hc)
      have main : ∃ st1, combineStep index columns st m = .ok st1 ∧ Hull (done ++ [m]) st1.timeframe := by
        have skip : contributing [m] = [] → Hull (done ++ [m]) st.timeframe := by
          intro he f hf
          have := h2 f hf
          simpa only [contributing_append, he, List.append_nil] using this
        cases m with
        | none => exact ⟨st, rfl, skip (by simp [contributing])⟩
        | some c =>
          simp only [combineStep]
          split
          · rename_i he
            exact ⟨st, rfl, skip (by rcases he with he | he <;> simp [contributing, Option.filter, he])⟩
          · rename_i he
            split
            · rename_i ht
              exact ⟨st, rfl, skip (by simp [contributing, Option.filter, ht])⟩
            · rename_i tf ht
              have hcc := contributing_single c tf he ht
              obtain ⟨f, s, e, hf, hbd⟩ := hb c (by
                rw [show some c :: ms = [some c] ++ ms from rfl, contributing_append, hcc]; simp)
              rw [ht] at hf
              cases hf
              rw [h1.cum, addColumns_spec index c (hw c (by simp))]
              cases hst : st.timeframe with
              | none =>
                refine ⟨_, rfl, ?_⟩
                intro f hf
                cases hf
                have hd := h1.frames.1 hst
                refine ⟨s, e, hbd, ?_, ⟨c, by simp [contributing_append, hcc], tf, ht, hbd.2.1⟩,
                  ⟨c, by simp [contributing_append, hcc], tf, ht, hbd.2.2.1⟩⟩
                intro c' hc' g hg
                rw [contributing_append, hd, hcc, List.nil_append, List.mem_singleton] at hc'
                subst hc'
                rw [ht] at hg
                cases hg
                exact ⟨s, e, hbd.2.1, hbd.2.2.1, le_refl _, le_refl _⟩
              | some t0 =>
                obtain ⟨s0, e0, hb0, hcov, ⟨c1, hc1, g1, hg1, hs1⟩, ⟨c2, hc2, g2, hg2, he2⟩⟩ := h2 t0 hst
                obtain ⟨u, hu, hub⟩ := union_bounded t0 tf s0 e0 s e hb0 hbd
                simp only [hu]
                refine ⟨_, rfl, ?_⟩
                intro f hf
                cases hf
                refine ⟨_, _, hub, ?_, ?_, ?_⟩
                · intro c' hc' g hg
                  rw [contributing_append, hcc, List.mem_append, List.mem_singleton] at hc'
                  rcases hc' with hc' | rfl
                  · obtain ⟨s', e', q1, q2, q3, q4⟩ := hcov c' hc' g hg
                    exact ⟨s', e', q1, q2, by omega, by omega⟩
                  · rw [ht] at hg
                    cases hg
                    exact ⟨s, e, hbd.2.1, hbd.2.2.1, by omega, by omega⟩
                · rcases le_total s0 s with hle | hle
                  · exact ⟨c1, by simp [contributing_append, hc1], g1, hg1, by rw [hs1, min_eq_left hle]⟩
                  · exact ⟨c, by simp [contributing_append, hcc], tf, ht, by rw [hbd.2.1, min_eq_right hle]⟩
                · rcases le_total e e0 with hle | hle
                  · exact ⟨c2, by simp [contributing_append, hc2], g2, hg2, by rw [he2, max_eq_left hle]⟩
                  · exact ⟨c, by simp [contributing_append, hcc], tf, ht, by rw [hbd.2.2.1, max_eq_right hle]⟩
      obtain ⟨st1, hs1, hh1⟩ := main
      obtain ⟨st', h3, h4, h5⟩ := ih (done ++ [m]) st1
        (combine_step_inv _ _ _ _ _ _ h1 (fun c hc => hw c (by simp [hc])) hs1) hh1 (fun c hc => hw c (by simp [hc])) hbt
      refine ⟨st', by simp [combineMeters, hs1, h3], by simpa using h4, by simpa using h5⟩
  obtain ⟨st, h1, h2, h3⟩ := loop meters [] _ (combine_init_inv index columns) (by intro f hf; cases hf) hw hb
  simp only [List.nil_append] at h2 h3
  have hk : ¬ (st.counter.cols.any (fun q => !(columns.map Prod.fst).contains q)) = true := by
    rw [List.any_eq_true]
    rintro ⟨q, hq, hn⟩
    obtain ⟨hq1, c, hcc, x, hx, hxq⟩ := (h2.cols q).1 hq
    obtain ⟨col, hcol, he⟩ := hc c hcc x hx (by rw [hxq]; exact hq1)
    simp only [Bool.not_eq_true', List.contains_eq_mem, decide_eq_false_iff_not] at hn
    exact hn (List.mem_map.2 ⟨col, hcol, he.trans hxq⟩)
  have hdiv : ∃ cells, divideColumns index columns st = .ok cells := by
    unfold divideColumns
    rw [if_neg hk]
    exact ⟨_, rfl⟩
  obtain ⟨cells, hcells⟩ := hdiv
  refine ⟨cells, st.timeframe, ?_, h2.frames, h3⟩
  unfold combineChunks
  rw [h1]
  simp only [hcells]

/-- An averaged quantity that was not asked for but that a meter brings along raises `KeyError`. -/
theorem C51_unrequested_quantity_raises (index : List Int) (columns : List ColName) (meters : List (Option GChunk))
    (st : CState) (hw : ∀ c, some c ∈ meters → WFChunk c)
    (hl : combineMeters index columns ⟨columns.map (fun _ => index.map (fun _ => none)), ⟨[], fun _ _ => none⟩, none⟩ meters =
      .ok st)
    (hx : ∃ c ∈ contributing meters, ∃ x ∈ c.cols, x.1 ∈ ["voltage", "pf", "frequency", "power factor", "phase_angle"] ∧
      ∀ col ∈ columns, col.1 ≠ x.1) :
    combineChunks index columns meters = .error .keyError := by
  have inv := combine_loop_inv index columns meters [] _ _ (combine_init_inv index columns) hw hl
  simp only [List.nil_append] at inv
  obtain ⟨c, hc, x, hx, hq, hno⟩ := hx
  have hk : (st.counter.cols.any (fun q => !(columns.map Prod.fst).contains q)) = true := by
    rw [List.any_eq_true]
    refine ⟨x.1, (inv.cols x.1).2 ⟨hq, c, hc, x, hx, rfl⟩, ?_⟩
    simp only [Bool.not_eq_true', List.contains_eq_mem, decide_eq_false_iff_not, List.mem_map]
    rintro ⟨col, hcol, he⟩
    exact hno col hcol he
  unfold combineChunks
  rw [hl]
  simp only [divideColumns, if_pos hk]

example : combineChunks [0, 1, 2] [("power", "active"), ("voltage", "")]
    [some ⟨[("voltage", ""), ("power", "active")], [(0, [some 230, some 5]), (1, [some 240, none])], some (TF.mk' (some 0) (some 2))⟩,
     none,
     some ⟨[("power", "active")], [(1, [some 7]), (0, [some 6])], some (TF.mk' (some 0) (some 3))⟩,
     some ⟨[("voltage", "")], [(1, [some 220])], some (TF.mk' (some 1) (some 2))⟩] =
    .ok ([[some 11, some 7, none], [some 230, some 230, none]], some (TF.mk' (some 0) (some 3))) := by decide +kernel

end Nilmtk
