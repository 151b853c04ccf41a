import Verif.Model.CSV
import Verif.Props.HDF
/-!
Property C17: `CSVDataStore.load`.
-/
namespace Nilmtk
open TF

theorem csvMask_iff (w : TF) (t : Int) : csvMask w t = true ↔ Mem t { w with includeEnd := false } := by
  have h1 : ({ w with includeEnd := false } : TF).start = w.start := rfl
  have h2 : ({ w with includeEnd := false } : TF).stop = w.stop := rfl
  simp only [csvMask, Mem, h1, h2]
  generalize w.start = x; generalize w.stop = y
  cases w.empty <;> cases x <;> cases y <;> simp

theorem csvPieces_flatten {α : Type} (cs : Nat) (hcs : 0 < cs) (rows : List (Row α)) :
    (csvPieces cs hcs rows).flatten = rows := by
  induction hn : rows.length using Nat.strong_induction_on generalizing rows with
  | _ n ih =>
    rw [csvPieces]
    split
    · rename_i h; simp [h]
    · rename_i h
      have : 0 < rows.length := List.length_pos_iff.2 h
      rw [List.flatten_cons, ih (rows.drop cs).length (by simp only [List.length_drop]; omega) _ rfl,
        List.take_append_drop]

theorem csvPieces_length {α : Type} (cs : Nat) (hcs : 0 < cs) (rows : List (Row α)) :
    ∀ p ∈ csvPieces cs hcs rows, p.length ≤ cs := by
  induction hn : rows.length using Nat.strong_induction_on generalizing rows with
  | _ n ih =>
    rw [csvPieces]
    split
    · simp
    · rename_i h
      have : 0 < rows.length := List.length_pos_iff.2 h
      intro p hp
      rcases List.mem_cons.1 hp with rfl | hp
      · simp
      · exact ih (rows.drop cs).length (by simp only [List.length_drop]; omega) _ rfl p hp

/-- Rows with increasing time: head before last. -/
theorem head_lt_last {α : Type} {sub : List (Row α)} (h : Increasing sub) {a b : Row α}
    (ha : sub.head? = some a) (hb : sub.getLast? = some b) (h2 : sub.length ≠ 1) : a.1 < b.1 := by
  cases sub with
  | nil => simp at ha
  | cons x l =>
    simp at ha; subst ha
    cases l with
    | nil => simp at h2
    | cons y l =>
      rw [List.getLast?_cons_cons] at hb
      exact (List.pairwise_cons.1 h).1 b (List.mem_of_getLast? hb)

theorem csvLoop_spec {α : Type} (rows : List (Row α)) (nameLine : Bool) (w : TF) (nLook : Int)
    (cs idx : Nat) (pieces : List (List (Row α))) (hinc : Increasing pieces.flatten)
    (h1 : ∀ p ∈ pieces, (p.filter (fun r => csvMask w r.1)).length ≠ 1) :
    (csvLoop rows nameLine w nLook cs idx pieces).err = none ∧
    (csvLoop rows nameLine w nLook cs idx pieces).out.map Chunk.rows =
      (pieces.map (fun p => p.filter (fun r => csvMask w r.1))).filter (fun s => !s.isEmpty) ∧
    (∀ c ∈ (csvLoop rows nameLine w nLook cs idx pieces).out, ∃ a b, c.rows.head? = some a ∧
      c.rows.getLast? = some b ∧ HalfOpen c.timeframe a.1 b.1 ∧ a.1 < b.1) := by
  induction pieces generalizing idx with
  | nil => simp [csvLoop, Gen.done]
  | cons p ps ih =>
    have hinc' : Increasing ps.flatten := by
      rw [List.flatten_cons] at hinc; exact (List.pairwise_append.1 hinc).2.1
    have hp : Increasing (p.filter (fun r => csvMask w r.1)) := by
      rw [List.flatten_cons] at hinc
      exact List.Pairwise.filter _ (List.pairwise_append.1 hinc).1
    obtain ⟨i1, i2, i3⟩ := ih (idx + 1) hinc' (fun q hq => h1 q (List.mem_cons_of_mem _ hq))
    have hl := h1 p List.mem_cons_self
    unfold csvLoop
    simp only [List.map_cons]
    generalize p.filter (fun r => csvMask w r.1) = sub at *
    cases ha : sub.head? with
    | none =>
      rw [List.head?_eq_none_iff] at ha
      subst ha
      exact ⟨i1, by simpa using i2, i3⟩
    | some a =>
      cases hb : sub.getLast? with
      | none =>
        rw [List.getLast?_eq_none_iff] at hb
        rw [hb] at ha; cases ha
      | some b =>
        have hlt := head_lt_last hp ha hb hl
        have hne : sub ≠ [] := by intro h; rw [h] at ha; cases ha
        simp only
        rw [ctor_ok (by intro x y hx hy; cases hx; cases hy; exact hlt)]
        simp only [Gen.cons]
        refine ⟨i1, ?_, ?_⟩
        · simp only [List.map_cons, i2, List.filter_cons]
          have : (!sub.isEmpty) = true := by simpa using hne
          rw [this]; rfl
        · intro c hc
          rcases List.mem_cons.1 hc with rfl | hc
          · exact ⟨a, b, ha, hb, halfOpen_mk, hlt⟩
          · exact i3 c hc

theorem flatten_filter_nonempty {β : Type} (l : List (List β)) :
    (l.filter (fun s => !s.isEmpty)).flatten = l.flatten := by
  induction l with
  | nil => rfl
  | cons a l ih =>
    cases a with
    | nil => simpa using ih
    | cons x a => simpa using ih

theorem flatten_map_filter {β : Type} (q : β → Bool) (l : List (List β)) :
    (l.map (fun p => p.filter q)).flatten = l.flatten.filter q := by
  induction l with
  | nil => rfl
  | cons a l ih => rw [List.map_cons, List.flatten_cons, List.flatten_cons, List.filter_append, ih]

theorem inter_include_of_halfopen (a b : TF) (ha : a.includeEnd = false) (hb : b.includeEnd = false) :
    (a.intersection b).includeEnd = false := by
  have hi : interInclude a b = false := by unfold interInclude; rw [ha, hb]; simp
  unfold TF.intersection
  split
  · rfl
  · split
    · split
      · simp [built, hi]
      · simp [built, hi]
    · simp [built, hi]

/-- C17. Unless some block of `chunksize` file rows contributes exactly one row, loading a section
does not raise, and concatenating the chunks gives exactly the rows of window ∩ section (end
excluded), in file order and without repetition; every chunk is non-empty, no larger than the chunk
size and carries the half-open timeframe from its first to its last row. -/
theorem C17_csv_load_partial {α : Type} (rows : List (Row α)) (hinc : Increasing rows) (nameLine : Bool)
    (window sec : TF) (hw : window.includeEnd = false) (hs : sec.includeEnd = false)
    (nLook cs : Int) (hcs : 0 < cs) (p : Int → Bool) (hp : ∀ t, p t = true ↔ Mem t window ∧ Mem t sec)
    (h1 : ∀ q ∈ csvPieces cs.toNat (by omega) rows, (q.filter (fun r => p r.1)).length ≠ 1) :
    (csvLoadSection (some rows) nameLine window nLook cs sec).err = none ∧
    ((csvLoadSection (some rows) nameLine window nLook cs sec).out.map Chunk.rows).flatten =
      rows.filter (fun r => p r.1) ∧
    ∀ c ∈ (csvLoadSection (some rows) nameLine window nLook cs sec).out,
      (c.rows.length : Int) ≤ cs ∧ ∃ a b, c.rows.head? = some a ∧ c.rows.getLast? = some b ∧
        HalfOpen c.timeframe a.1 b.1 ∧ a.1 < b.1 := by
  have hmask : ∀ t, csvMask (window.intersection sec) t = p t := by
    intro t
    rw [Bool.eq_iff_iff, hp, csvMask_iff, ← C02_intersection_halfopen window sec t hw hs]
    have : (window.intersection sec).includeEnd = false := inter_include_of_halfopen window sec hw hs
    have e : ({ window.intersection sec with includeEnd := false } : TF) = window.intersection sec := by
      rw [← this]
    rw [e]
  have hfun : (fun r : Row α => csvMask (window.intersection sec) r.1) = fun r => p r.1 := by
    funext r; exact hmask r.1
  simp only [csvLoadSection, hcs, dif_pos]
  obtain ⟨g1, g2, g3⟩ := csvLoop_spec rows nameLine (window.intersection sec) nLook cs.toNat 0
    (csvPieces cs.toNat (by omega) rows) (by rw [csvPieces_flatten]; exact hinc)
    (by intro q hq; rw [hfun]; exact h1 q hq)
  refine ⟨g1, ?_, ?_⟩
  · rw [g2, flatten_filter_nonempty, flatten_map_filter, csvPieces_flatten, hfun]
  · intro c hc
    refine ⟨?_, g3 c hc⟩
    have : c.rows ∈ (csvLoop rows nameLine (window.intersection sec) nLook cs.toNat 0
      (csvPieces cs.toNat (by omega) rows)).out.map Chunk.rows := List.mem_map_of_mem hc
    rw [g2, List.mem_filter, List.mem_map] at this
    obtain ⟨⟨q, hq, hqe⟩, _⟩ := this
    rw [← hqe]
    have h3 := csvPieces_length cs.toNat (by omega) rows q hq
    have h4 : (q.filter (fun r => csvMask (window.intersection sec) r.1)).length ≤ q.length := List.length_filter_le _ _
    omega

theorem csvLoop_error {α : Type} (rows : List (Row α)) (nameLine : Bool) (w : TF) (nLook : Int)
    (cs idx : Nat) (pieces : List (List (Row α))) (hinc : Increasing pieces.flatten)
    (h1 : ∃ p ∈ pieces, (p.filter (fun r => csvMask w r.1)).length = 1) :
    (csvLoop rows nameLine w nLook cs idx pieces).err = some .valueError := by
  induction pieces generalizing idx with
  | nil => obtain ⟨p, hp, _⟩ := h1; cases hp
  | cons p ps ih =>
    have hinc' : Increasing ps.flatten := by
      rw [List.flatten_cons] at hinc; exact (List.pairwise_append.1 hinc).2.1
    have hp : Increasing (p.filter (fun r => csvMask w r.1)) := by
      rw [List.flatten_cons] at hinc
      exact List.Pairwise.filter _ (List.pairwise_append.1 hinc).1
    have hrec : (p.filter (fun r => csvMask w r.1)).length ≠ 1 →
        (csvLoop rows nameLine w nLook cs (idx + 1) ps).err = some .valueError := by
      intro h
      obtain ⟨q, hq, hq1⟩ := h1
      rcases List.mem_cons.1 hq with rfl | hq
      · exact absurd hq1 h
      · exact ih (idx + 1) hinc' ⟨q, hq, hq1⟩
    unfold csvLoop
    simp only
    generalize p.filter (fun r => csvMask w r.1) = sub at *
    by_cases hl : sub.length = 1
    · obtain ⟨a, rfl⟩ := List.length_eq_one_iff.1 hl
      simp only [List.head?_cons, List.getLast?_singleton]
      rw [ctor_error (Int.le_refl _)]; rfl
    · cases ha : sub.head? with
      | none => exact hrec hl
      | some a =>
        cases hb : sub.getLast? with
        | none => exact hrec hl
        | some b =>
          simp only
          rw [ctor_ok (by intro x y hx hy; cases hx; cases hy; exact head_lt_last hp ha hb hl)]
          exact hrec hl

/-- C17, what is missing: loading raises (`ValueError`) whenever some block of `chunksize` file rows
contributes exactly one row. -/
theorem C17_single_row_block_raises {α : Type} (rows : List (Row α)) (hinc : Increasing rows)
    (nameLine : Bool) (window sec : TF) (nLook cs : Int) (hcs : 0 < cs)
    (h1 : ∃ q ∈ csvPieces cs.toNat (by omega) rows,
      (q.filter (fun r => csvMask (window.intersection sec) r.1)).length = 1) :
    (csvLoadSection (some rows) nameLine window nLook cs sec).err = some .valueError := by
  simp only [csvLoadSection, hcs, dif_pos]
  exact csvLoop_error _ _ _ _ _ _ _ (by rw [csvPieces_flatten]; exact hinc) h1

/-- C17. Without a file loading is a `FileNotFoundError`, with a chunksize below one a `ValueError`, whatever the sections; with
an empty list of sections neither is noticed. -/
theorem C17_csv_errors {α : Type} (rows : List (Row α)) (nameLine : Bool) (window : TF) (nLook cs : Int) (sections : Option (List TF)) :
    (sections ≠ some [] → (csvLoad (none : Option (List (Row α))) nameLine window sections nLook cs).1.out = [] ∧
      (csvLoad (none : Option (List (Row α))) nameLine window sections nLook cs).1.err = some .fileNotFound) ∧
    (sections ≠ some [] → cs < 1 → (csvLoad (some rows) nameLine window sections nLook cs).1.out = [] ∧
      (csvLoad (some rows) nameLine window sections nLook cs).1.err = some .valueError) ∧
    ∀ file : Option (List (Row α)), (csvLoad file nameLine window (some []) nLook cs).1.out = [] ∧
      (csvLoad file nameLine window (some []) nLook cs).1.err = none := by
  have hsec : sections ≠ some [] → ∃ s l, sections.getD [TF.blank] = s :: l := by
    intro h
    match sections, h with
    | none, _ => exact ⟨_, _, rfl⟩
    | some [], h => exact absurd rfl h
    | some (s :: l), _ => exact ⟨s, l, rfl⟩
  refine ⟨fun h => ?_, fun h hcs => ?_, fun file => ⟨rfl, rfl⟩⟩
  · obtain ⟨s, l, hl⟩ := hsec h
    simp [csvLoad, hl, csvLoadSections, csvLoadSection, Gen.raise, Gen.append]
  · obtain ⟨s, l, hl⟩ := hsec h
    have : ¬ 0 < cs := by omega
    simp [csvLoad, hl, csvLoadSections, csvLoadSection, this, Gen.raise, Gen.append]

/-- C17: the same section, loaded from the same rows through both stores: the row at a closed
section end is returned by the HDF store and not by the CSV store. -/
theorem C17_closed_end_counterexample :
    ((csvLoadSection (some exTable) true TF.blank 0 100
      { mk' (some 5) (some 30) with includeEnd := true }).out.map Chunk.rows) = [[(10, 8), (20, 9)]] ∧
    ((loadSection (some exTable) TF.blank 0 100
      { mk' (some 5) (some 30) with includeEnd := true }).1.out.map Chunk.rows) =
        [[(10, 8), (20, 9), (30, 5)]] := by
  constructor
  · simp [csvLoadSection, csvPieces, csvLoop, exTable, csvMask, mk', TF.blank, TF.intersection, interStart,
      interEnd, interInclude, built, TF.start, TF.stop, TF.ctor, TF.setStart, TF.setEnd, Gen.cons, Gen.done,
      List.filter]
  · decide +kernel

/-- The flag reported by the CSV store stays `True` although a section came in several chunks (so
C16 does not hold for this store). -/
theorem C16_csv_flag_counterexample :
    (csvLoad (some exTable) true TF.blank none 0 2).2 = true ∧
    (csvLoad (some (exTable.take 4)) true TF.blank none 0 2).1.out.length = 2 := by
  constructor
  · rfl
  · simp [csvLoad, csvLoadSections, csvLoadSection, csvPieces, csvLoop, exTable, csvMask, TF.blank,
      TF.intersection, interStart, interEnd, interInclude, built, TF.start, TF.stop, TF.ctor, TF.setStart,
      TF.setEnd, Gen.cons, Gen.done, Gen.append, List.filter]

/-! ### look-ahead of the CSV store -/

/-- The mask written as query terms. -/
def csvTerms (w : TF) : Option Int × Option (Int × Bool) := (w.start, w.stop.map (fun e => (e, false)))

theorem csvMask_terms (w : TF) (he : w.empty = false) (t : Int) :
    csvMask w t = matchesTerms (csvTerms w) t := by
  simp only [csvMask, he, csvTerms, matchesTerms]
  generalize w.start = x; generalize w.stop = y
  cases x <;> cases y <;> simp

theorem lastKept_eq {α : Type} (w : TF) (he : w.empty = false) (piece : List (Row α)) :
    lastKept w piece = (coordinates (csvTerms w) piece).getLast?.getD 0 := by
  unfold lastKept coordinates
  congr 2
  apply List.filter_congr
  intro i _
  cases piece[i]? with
  | none => rfl
  | some r => exact csvMask_terms w he r.1

theorem csvLoop_look {α : Type} (rows : List (Row α)) (hinc : Increasing rows) (w : TF) (nLook : Int)
    (hn : 0 < nLook) (cs idx : Nat) (hcs : 0 < cs) :
    ∀ c ∈ (csvLoop rows true w nLook cs idx (csvPieces cs hcs (rows.drop (idx * cs)))).out,
      LooksAhead rows nLook.toNat c := by
  induction hk : (rows.drop (idx * cs)).length using Nat.strong_induction_on generalizing idx with
  | _ k ih =>
    rw [csvPieces]
    split
    · simp [csvLoop, Gen.done]
    · rename_i hne
      have hpos : 0 < (rows.drop (idx * cs)).length := List.length_pos_iff.2 hne
      have hnext : (rows.drop (idx * cs)).drop cs = rows.drop ((idx + 1) * cs) := by
        rw [List.drop_drop]; congr 1; ring
      rw [hnext]
      have hrec := ih (rows.drop ((idx + 1) * cs)).length (by
        rw [← hnext]; simp only [List.length_drop] at *; omega) (idx + 1) rfl
      unfold csvLoop
      simp only
      generalize hp : (rows.drop (idx * cs)).take cs = piece at *
      cases he : w.empty with
      | true =>
        have : piece.filter (fun r => csvMask w r.1) = [] := by
          rw [List.filter_eq_nil_iff]; intro r _; simp [csvMask, he]
        rw [this]; exact hrec
      | false =>
        have hmask : (fun r : Row α => csvMask w r.1) = fun r => matchesTerms (csvTerms w) r.1 := by
          funext r; exact csvMask_terms w he r.1
        rw [hmask, lastKept_eq w he]
        have hpinc : Increasing piece := by
          rw [← hp]
          exact hinc.sublist ((List.take_sublist _ _).trans (List.drop_sublist _ _))
        cases ha : (coordinates (csvTerms w) piece).head? with
        | none =>
          rw [List.head?_eq_none_iff] at ha
          rw [coordinates_nil _ _ ha]; exact hrec
        | some a =>
          cases hb : (coordinates (csvTerms w) piece).getLast? with
          | none =>
            rw [List.getLast?_eq_none_iff] at hb
            rw [hb] at ha; cases ha
          | some b =>
            obtain ⟨h1, h2, _, _, h5⟩ := select_coordinates (csvTerms w) piece hpinc a b ha hb
            rw [← h5]
            split
            · split
              · simp [Gen.raise]
              · intro c hc
                rcases List.mem_cons.1 hc with rfl | hc
                · refine ⟨rows.take (idx * cs) ++ piece.take a, piece.drop (b + 1) ++ rows.drop ((idx + 1) * cs), ?_, ?_⟩
                  · have e1 := split3 piece a (b + 1) (by omega)
                    have e2 : rows = rows.take (idx * cs) ++ (piece ++ rows.drop ((idx + 1) * cs)) := by
                      rw [← hp, ← hnext, List.take_append_drop, List.take_append_drop]
                    conv_lhs => rw [e2, e1]
                    simp only [List.append_assoc]
                  · simp only [csvLook, gt_iff_lt, hn, if_true, Option.getD_some]
                    congr 2
                    have e3 : 3 + idx * cs + b + 1 - 3 = idx * cs + (b + 1) := by omega
                    rw [e3, ← List.drop_drop]
                    have e4 : rows.drop (idx * cs) = piece ++ rows.drop ((idx + 1) * cs) := by
                      rw [← hp, ← hnext, List.take_append_drop]
                    rw [e4, List.drop_append_of_le_length (by omega)]
                · exact hrec c hc
            · exact hrec

/-- C15 for the CSV store: when the file has the third header line (index name), the look-ahead of
every chunk is exactly the (at most `n`) rows stored right after the chunk's last row. -/
theorem C15_csv_look_ahead_partial {α : Type} (rows : List (Row α)) (hinc : Increasing rows)
    (window sec : TF) (nLook cs : Int) (hn : 0 < nLook) :
    ∀ c ∈ (csvLoadSection (some rows) true window nLook cs sec).out, LooksAhead rows nLook.toNat c := by
  unfold csvLoadSection
  simp only
  split
  · rename_i h
    have := csvLoop_look rows hinc (window.intersection sec) nLook hn cs.toNat 0 (by omega)
    simpa using this
  · simp [Gen.raise]

/-- C15 for the CSV store fails without that line: the first row after the chunk is skipped. -/
theorem C15_csv_no_index_name_counterexample :
    (csvLoadSection (some exTable) false TF.blank 1 100 (mk' (some 5) (some 25))).out.map Chunk.look =
      [some [(40, 6)]] := by
  simp [csvLoadSection, csvPieces, csvLoop, exTable, csvMask, mk', TF.blank, TF.intersection, interStart,
      interEnd, interInclude, built, TF.start, TF.stop, TF.ctor, TF.setStart, TF.setEnd, Gen.cons, Gen.done,
      List.filter, csvLook, lastKept, List.range, List.range.loop]

/-- The hypotheses of `C17_csv_load_partial` hold for a section of three rows read in blocks of four. -/
example : Increasing exTable ∧ (TF.blank.includeEnd = false) ∧
    ∀ q ∈ csvPieces (4 : Int).toNat (by decide) exTable,
      (q.filter (fun r => decide (5 ≤ r.1 ∧ r.1 < 35))).length ≠ 1 := by
  refine ⟨by simp [Increasing, exTable], rfl, ?_⟩
  simp [csvPieces, exTable]

end Nilmtk
