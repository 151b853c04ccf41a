import Verif.Lemmas.HDF
import Verif.Props.TimeFrame
/-!
Properties C12–C16: `HDFDataStore.load`.
-/
namespace Nilmtk
open TF

theorem matchesTerms_iff {w : TF} {terms : Option Int × Option (Int × Bool)}
    (h : w.queryTerms = .ok (some terms)) (t : Int) : matchesTerms terms t = true ↔ Mem t w := by
  unfold queryTerms at h
  unfold Mem
  cases he : w.empty with
  | true => simp [he] at h
  | false =>
    simp only [he, Bool.false_eq_true, if_false] at h
    revert h
    generalize w.start = x; generalize w.stop = y
    intro h
    unfold matchesTerms
    cases x <;> cases y <;> simp at h <;> subst h <;> simp <;> cases w.includeEnd <;> simp <;> omega

theorem queryTerms_none {w : TF} (h : w.queryTerms = .ok none) :
    w.empty = false ∧ w.start = none ∧ w.stop = none := by
  unfold queryTerms at h
  cases he : w.empty with
  | true => simp [he] at h
  | false =>
    simp only [he, Bool.false_eq_true, if_false] at h
    revert h
    generalize w.start = x; generalize w.stop = y
    intro h
    cases x <;> cases y <;> simp at h ⊢

theorem queryTerms_some {w : TF} {terms : Option Int × Option (Int × Bool)}
    (h : w.queryTerms = .ok (some terms)) : w.start ≠ none ∨ w.stop ≠ none := by
  unfold queryTerms at h
  cases he : w.empty with
  | true => simp [he] at h
  | false =>
    simp only [he, Bool.false_eq_true, if_false] at h
    revert h
    generalize w.start = x; generalize w.stop = y
    intro h
    cases x <;> cases y <;> simp at h ⊢

theorem coordinates_sorted {α : Type} (terms : Option Int × Option (Int × Bool)) (table : List (Row α)) :
    (coordinates terms table).Pairwise (· < ·) :=
  List.Pairwise.filter _ List.pairwise_lt_range

theorem mem_coordinates {α : Type} (terms : Option Int × Option (Int × Bool)) (table : List (Row α)) (i : Nat) :
    i ∈ coordinates terms table ↔ i < table.length ∧ matchesTerms terms (tm table i) = true := by
  unfold coordinates
  rw [List.mem_filter, List.mem_range]
  constructor
  · rintro ⟨h1, h2⟩
    refine ⟨h1, ?_⟩
    rw [List.getElem?_eq_getElem h1] at h2
    simpa [tm, List.getElem?_eq_getElem h1] using h2
  · rintro ⟨h1, h2⟩
    refine ⟨h1, ?_⟩
    rw [List.getElem?_eq_getElem h1]
    simpa [tm, List.getElem?_eq_getElem h1] using h2

theorem sorted_head_le {l : List Nat} (h : l.Pairwise (· < ·)) {a : Nat} (ha : l.head? = some a) :
    ∀ x ∈ l, a ≤ x := by
  cases l with
  | nil => simp at ha
  | cons b l =>
    simp at ha; subst ha
    intro x hx
    rcases List.mem_cons.1 hx with rfl | hx
    · exact Nat.le_refl _
    · exact Nat.le_of_lt ((List.pairwise_cons.1 h).1 x hx)

theorem sorted_le_last {l : List Nat} (h : l.Pairwise (· < ·)) {b : Nat} (hb : l.getLast? = some b) :
    ∀ x ∈ l, x ≤ b := by
  induction l with
  | nil => simp
  | cons c l ih =>
    intro x hx
    cases l with
    | nil => simp at hb hx; omega
    | cons d l =>
      rw [List.getLast?_cons_cons] at hb
      have h1 := ih (List.pairwise_cons.1 h).2 hb
      rcases List.mem_cons.1 hx with rfl | hx
      · have := (List.pairwise_cons.1 h).1 d List.mem_cons_self
        have := h1 d List.mem_cons_self
        omega
      · exact h1 x hx

theorem split3 {α : Type} (table : List (Row α)) (a b : Nat) (hab : a ≤ b) :
    table = table.take a ++ (selectRows table a b ++ table.drop b) := by
  simp only [selectRows]
  have h1 : table.drop b = (table.drop a).drop (b - a) := by
    rw [List.drop_drop]; congr 1; omega
  rw [h1, List.take_append_drop, List.take_append_drop]

theorem mem_get {α : Type} {table : List (Row α)} {r : Row α} {a b : Nat}
    (h : r ∈ selectRows table a b) : ∃ j, a ≤ j ∧ j < b ∧ j < table.length ∧ tm table j = r.1 := by
  obtain ⟨k, hk, rfl⟩ := List.getElem_of_mem h
  rw [select_length] at hk
  refine ⟨a + k, by omega, by omega, by omega, ?_⟩
  simp [tm, selectRows, List.getElem?_eq_getElem (show a + k < table.length by omega)]

theorem matches_convex {terms : Option Int × Option (Int × Bool)} {x y z : Int}
    (hx : matchesTerms terms x = true) (hz : matchesTerms terms z = true) (h1 : x ≤ y) (h2 : y ≤ z) :
    matchesTerms terms y = true := by
  obtain ⟨s, e⟩ := terms
  unfold matchesTerms at *
  rcases s with _ | s <;> rcases e with _ | ⟨e, _ | _⟩ <;> simp at * <;> omega

/-- The rows between the first and the last matching position are exactly the matching rows. -/
theorem select_coordinates {α : Type} (terms : Option Int × Option (Int × Bool)) (table : List (Row α))
    (hinc : Increasing table) (a b : Nat) (ha : (coordinates terms table).head? = some a)
    (hb : (coordinates terms table).getLast? = some b) :
    a ≤ b ∧ b < table.length ∧ matchesTerms terms (tm table a) = true ∧
    matchesTerms terms (tm table b) = true ∧
    selectRows table a (b + 1) = table.filter (fun r => matchesTerms terms r.1) := by
  have hs := coordinates_sorted terms table
  have hma := (mem_coordinates terms table a).1 (List.mem_of_mem_head? ha)
  have hmb := (mem_coordinates terms table b).1 (List.mem_of_getLast? hb)
  have hab := sorted_head_le hs ha b (List.mem_of_getLast? hb)
  refine ⟨hab, hmb.1, hma.2, hmb.2, ?_⟩
  conv_rhs => rw [split3 table a (b + 1) (by omega)]
  rw [List.filter_append, List.filter_append]
  have f1 : (table.take a).filter (fun r => matchesTerms terms r.1) = [] := by
    rw [List.filter_eq_nil_iff]
    intro r hr hm
    have hr' : r ∈ selectRows table 0 a := by simpa [selectRows] using hr
    obtain ⟨j, _, h2, h3, h4⟩ := mem_get hr'
    have := sorted_head_le hs ha j ((mem_coordinates terms table j).2 ⟨h3, by rw [h4]; exact hm⟩)
    omega
  have f2 : (table.drop (b + 1)).filter (fun r => matchesTerms terms r.1) = [] := by
    rw [List.filter_eq_nil_iff]
    intro r hr hm
    have hr' : r ∈ selectRows table (b + 1) (table.length + b + 1) := by
      simp only [selectRows]; rw [List.take_of_length_le (by rw [List.length_drop]; omega)]; exact hr
    obtain ⟨j, h1, h2, h3, h4⟩ := mem_get hr'
    have := sorted_le_last hs hb j ((mem_coordinates terms table j).2 ⟨h3, by rw [h4]; exact hm⟩)
    omega
  have f3 : (selectRows table a (b + 1)).filter (fun r => matchesTerms terms r.1) = selectRows table a (b + 1) := by
    rw [List.filter_eq_self]
    intro r hr
    obtain ⟨j, h1, h2, h3, h4⟩ := mem_get hr
    rw [← h4]
    exact matches_convex hma.2 hmb.2 (tm_le hinc h1 h3) (tm_le hinc (by omega) hmb.1)
  rw [f1, f2, f3]; simp

theorem coordinates_nil {α : Type} (terms : Option Int × Option (Int × Bool)) (table : List (Row α))
    (h : coordinates terms table = []) : table.filter (fun r => matchesTerms terms r.1) = [] := by
  rw [List.filter_eq_nil_iff]
  intro r hr hm
  obtain ⟨j, hj, rfl⟩ := List.getElem_of_mem hr
  have : j ∈ coordinates terms table := by
    rw [mem_coordinates]; exact ⟨hj, by simpa [tm, List.getElem?_eq_getElem hj] using hm⟩
  rw [h] at this; cases this

/-- What loading one section gives, in one place: either no row matches and a single empty frame is
yielded; or exactly one row matches; or the chunk loop runs from the first to the last matching
row. `p` tells which instants belong to window ∩ section. -/
theorem loadSection_cases {α : Type} (table : List (Row α)) (hinc : Increasing table) (window sec : TF)
    (nLook cs : Int) (hcs : 0 < cs) (p : Int → Bool)
    (hp : ∀ t, p t = true ↔ Mem t (window.intersection sec)) :
    (table.filter (fun r => p r.1) = [] ∧
      ∃ tf, loadSection (some table) window nLook cs sec = (⟨[⟨[], tf, none⟩], none⟩, false)) ∨
    ((table.filter (fun r => p r.1)).length = 1 ∧
      (loadSection (some table) window nLook cs sec).1.err = none ∧
      (loadSection (some table) window nLook cs sec).2 = false ∧
      (loadSection (some table) window nLook cs sec).1.out.length ≤ 1 ∧
      joinOverlapping ((loadSection (some table) window nLook cs sec).1.out.map Chunk.rows) = []) ∨
    (∃ start stop, loadSection (some table) window nLook cs sec =
        loadRange table (window.intersection sec) nLook cs start stop ∧
      selectRows table start (stop + 1) = table.filter (fun r => p r.1) ∧
      start < stop ∧ start + 1 < table.length ∧
      (∀ a, (window.intersection sec).start = some a → a ≤ tm table start) ∧
      (∀ b, (window.intersection sec).stop = some b → stop < table.length → tm table stop ≤ b) ∧
      (((window.intersection sec).start ≠ none ∨ (window.intersection sec).stop ≠ none) ∧
          stop < table.length ∨
        (stop = table.length ∧ start = 0 ∧ (window.intersection sec).start = none ∧
          (window.intersection sec).stop = none))) := by
  generalize hw : window.intersection sec = w at *
  have hnil : w.empty = true → table.filter (fun r => p r.1) = [] := by
    intro h
    rw [List.filter_eq_nil_iff]
    intro r _ hm
    have := ((hp r.1).1 hm).1
    rw [h] at this; cases this
  unfold loadSection
  rw [hw]
  by_cases he : w.empty = true
  · left
    refine ⟨hnil he, sec, ?_⟩
    simp [he]
  · have he' : w.empty = false := by simpa using he
    simp only [he', Bool.false_eq_true, if_false]
    cases hq : w.queryTerms with
    | error e => simp [queryTerms, he'] at hq; split at hq <;> cases hq
    | ok o =>
      cases o with
      | none =>
        obtain ⟨_, h1, h2⟩ := queryTerms_none hq
        have hall : table.filter (fun r => p r.1) = table := by
          rw [List.filter_eq_self]
          intro r _
          rw [hp]; simp [Mem, he', h1, h2]
        rw [hall]
        by_cases hl : table.length ≤ 1
        · simp only [hl, if_true]
          rcases Nat.lt_or_eq_of_le hl with h3 | h3
          · left
            exact ⟨List.length_eq_zero_iff.1 (by omega), sec, rfl⟩
          · right; left
            exact ⟨h3, trivial, trivial, by simp, by simp [joinOverlapping]⟩
        · right; right
          simp only [hl, if_false]
          refine ⟨0, table.length, rfl, ?_, by omega, by omega, ?_, ?_, Or.inr ⟨rfl, rfl, h1, h2⟩⟩
          · simp only [selectRows]; rw [List.take_of_length_le (by simp)]; rfl
          · rw [h1]; simp
          · rw [h2]; simp
      | some terms =>
        simp only
        have hfil : table.filter (fun r => p r.1) = table.filter (fun r => matchesTerms terms r.1) := by
          apply List.filter_congr
          intro r _
          rw [Bool.eq_iff_iff, hp, matchesTerms_iff hq]
        rw [hfil]
        cases hh : (coordinates terms table).head? with
        | none =>
          left
          rw [List.head?_eq_none_iff] at hh
          exact ⟨coordinates_nil _ _ hh, w, rfl⟩
        | some a =>
          cases hl : (coordinates terms table).getLast? with
          | none =>
            rw [List.getLast?_eq_none_iff] at hl
            rw [hl] at hh; cases hh
          | some b =>
            obtain ⟨h1, h2, h3, h4, h5⟩ := select_coordinates terms table hinc a b hh hl
            simp only
            rcases Nat.lt_or_eq_of_le h1 with h6 | rfl
            · right; right
              refine ⟨a, b, rfl, h5, h6, by omega, ?_, ?_, Or.inl ⟨queryTerms_some hq, h2⟩⟩
              · intro x hx
                rw [matchesTerms_iff hq] at h3
                exact h3.2.1 x hx
              · intro y hy _
                rw [matchesTerms_iff hq] at h4
                rcases h4.2.2 y hy with h | h <;> omega
            · right; left
              refine ⟨?_, ?_, ?_, ?_, ?_⟩
              · rw [← h5, select_length]; omega
              · simp only [loadRange, hcs, dif_pos]
                rw [chunkLoop_done _ _ _ _ _ _ _ _ _ (Nat.le_refl _)]; rfl
              · simp only [loadRange, hcs, dif_pos]
                have : (a - a + cs.toNat - 1) / cs.toNat = 0 := Nat.div_eq_of_lt (by omega)
                simp only [nChunks, this]; rfl
              · simp only [loadRange, hcs, dif_pos]
                rw [chunkLoop_done _ _ _ _ _ _ _ _ _ (Nat.le_refl _)]; simp [Gen.done]
              · simp only [loadRange, hcs, dif_pos]
                rw [chunkLoop_done _ _ _ _ _ _ _ _ _ (Nat.le_refl _)]; rfl

/-- All facts about a section with at least two rows. -/
theorem loadSection_spec {α : Type} (table : List (Row α)) (hinc : Increasing table) (window sec : TF)
    (nLook cs : Int) (hcs : 0 < cs) (p : Int → Bool)
    (hp : ∀ t, p t = true ↔ Mem t (window.intersection sec))
    (h2 : 2 ≤ (table.filter (fun r => p r.1)).length) :
    ∃ start stop, LoopSpec table (window.intersection sec) nLook cs.toNat stop
        (nChunks start stop cs.toNat) 0 start (loadSection (some table) window nLook cs sec).1 ∧
      (loadSection (some table) window nLook cs sec).2 = decide (nChunks start stop cs.toNat > 1) ∧
      selectRows table start (stop + 1) = table.filter (fun r => p r.1) ∧ start < stop ∧
      start < table.length ∧
      (((window.intersection sec).start ≠ none ∨ (window.intersection sec).stop ≠ none) ∧
          stop < table.length ∨
        (stop = table.length ∧ start = 0 ∧ (window.intersection sec).start = none ∧
          (window.intersection sec).stop = none)) := by
  rcases loadSection_cases table hinc window sec nLook cs hcs p hp with h | h | ⟨a, b, h1, h3, h4, h5, h6, h7, h8⟩
  · rw [h.1] at h2; simp at h2
  · omega
  · refine ⟨a, b, ?_, ?_, h3, h4, by omega, h8⟩
    · rw [h1]
      simp only [loadRange, hcs, dif_pos]
      apply chunkLoop_spec table _ nLook cs.toNat b a (by omega) hinc _ h6 h7 0 a (by simp) h4 h5
      rcases h8 with h | h
      · exact Or.inl h.2
      · exact Or.inr ⟨h.1, h.2.2⟩
    · rw [h1]; simp only [loadRange, hcs, dif_pos]

/-! ### C12 -/

/-- C12 (one section): unless exactly one row matches, joining the chunks gives exactly the rows of
window ∩ section, in order. -/
theorem C12_section_rows_partial {α : Type} (table : List (Row α)) (hinc : Increasing table) (window sec : TF)
    (nLook cs : Int) (hcs : 0 < cs) (p : Int → Bool)
    (hp : ∀ t, p t = true ↔ Mem t (window.intersection sec))
    (h1 : (table.filter (fun r => p r.1)).length ≠ 1) :
    joinOverlapping ((loadSection (some table) window nLook cs sec).1.out.map Chunk.rows) =
      table.filter (fun r => p r.1) := by
  rcases Nat.lt_or_ge (table.filter (fun r => p r.1)).length 2 with h | h
  · rcases loadSection_cases table hinc window sec nLook cs hcs p hp with h' | h' | ⟨a, b, _, h3, h4, h5, _⟩
    · obtain ⟨h3, tf, h4⟩ := h'
      rw [h4, h3]; rfl
    · omega
    · rw [← h3, select_length] at h; omega
  · obtain ⟨start, stop, hs, _, h3, _⟩ := loadSection_spec table hinc window sec nLook cs hcs p hp h
    rw [hs.joined, h3]

/-- C12 for half-open windows and sections, in terms of the instants of both. -/
theorem C12_section_rows_halfopen_partial {α : Type} (table : List (Row α)) (hinc : Increasing table)
    (window sec : TF) (hw : window.includeEnd = false) (hs : sec.includeEnd = false)
    (nLook cs : Int) (hcs : 0 < cs) (p : Int → Bool)
    (hp : ∀ t, p t = true ↔ Mem t window ∧ Mem t sec)
    (h1 : (table.filter (fun r => p r.1)).length ≠ 1) :
    joinOverlapping ((loadSection (some table) window nLook cs sec).1.out.map Chunk.rows) =
      table.filter (fun r => p r.1) :=
  C12_section_rows_partial table hinc window sec nLook cs hcs p
    (fun t => by rw [hp, C02_intersection_halfopen window sec t hw hs]) h1

/-- C12, what is missing: whenever exactly one row matches, that row is never delivered. -/
theorem C12_single_row_lost {α : Type} (table : List (Row α)) (hinc : Increasing table) (window sec : TF)
    (nLook cs : Int) (hcs : 0 < cs) (p : Int → Bool)
    (hp : ∀ t, p t = true ↔ Mem t (window.intersection sec))
    (h1 : (table.filter (fun r => p r.1)).length = 1) :
    (loadSection (some table) window nLook cs sec).1.err = none ∧
    joinOverlapping ((loadSection (some table) window nLook cs sec).1.out.map Chunk.rows) = [] := by
  rcases loadSection_cases table hinc window sec nLook cs hcs p hp with h' | h' | ⟨a, b, _, h3, h4, h5, _⟩
  · rw [h'.1] at h1; simp at h1
  · exact ⟨h'.2.1, h'.2.2.2.2⟩
  · rw [← h3, select_length] at h1; omega

/-- C12, concrete witness of the lost row: rows at 0, 10, 20, section [5, 15). -/
theorem C12_single_row_counterexample :
    (loadSection (some [(0, 1), (10, 2), (20, 3)]) TF.blank 0 100 (mk' (some 5) (some 15))).1 =
      (⟨[], none⟩ : Gen (Chunk Nat)) := by
  simp [loadSection, TF.blank, mk', TF.intersection, interStart, interEnd, TF.start, TF.stop, built,
    queryTerms, interInclude, coordinates, List.range, List.range.loop, matchesTerms, List.filter, loadRange, chunkLoop, Gen.done]

theorem loadSections_spec {α : Type} (table : Option (List (Row α))) (window : TF) (nLook cs : Int)
    (secs : List TF) (flag : Bool)
    (hne : (loadSections table window nLook cs secs flag).1.err = none) :
    (loadSections table window nLook cs secs flag).1.out =
      (secs.map (fun s => (loadSection table window nLook cs s).1.out)).flatten ∧
    (∀ s ∈ secs, (loadSection table window nLook cs s).1.err = none) ∧
    (loadSections table window nLook cs secs flag).2 =
      (flag && secs.all (fun s => !(loadSection table window nLook cs s).2)) := by
  induction secs generalizing flag with
  | nil => simp [loadSections, Gen.done]
  | cons s secs ih =>
    unfold loadSections at hne ⊢
    cases he : (loadSection table window nLook cs s).1.err with
    | some e => simp [he] at hne
    | none =>
      simp only [he, Gen.append] at hne ⊢
      obtain ⟨h1, h2, h3⟩ := ih _ hne
      refine ⟨by simp [h1], ?_, ?_⟩
      · intro s' hs'
        rcases List.mem_cons.1 hs' with rfl | hs'
        · exact he
        · exact h2 s' hs'
      · rw [h3]; simp [Bool.and_assoc]

/-- C12 for a whole `load`: when it does not raise, the output falls into one part per section, in
order, and every part joins to the rows of window ∩ section (for sections without exactly one row). -/
theorem C12_load_rows_partial {α : Type} (table : List (Row α)) (hinc : Increasing table) (window : TF)
    (secs : List TF) (nLook cs : Int) (hcs : 0 < cs) (p : TF → Int → Bool)
    (hp : ∀ s ∈ secs, ∀ t, p s t = true ↔ Mem t (window.intersection s))
    (h1 : ∀ s ∈ secs, (table.filter (fun r => p s r.1)).length ≠ 1)
    (hne : (hdfLoad (some table) window (some secs) nLook cs).1.err = none) :
    ∃ parts : List (List (Chunk α)),
      (hdfLoad (some table) window (some secs) nLook cs).1.out = parts.flatten ∧
      List.Forall₂ (fun part s => joinOverlapping (part.map Chunk.rows) =
        table.filter (fun r => p s r.1)) parts secs := by
  have h2 := (loadSections_spec (some table) window nLook cs secs true hne).1
  refine ⟨secs.map (fun s => (loadSection (some table) window nLook cs s).1.out), h2, ?_⟩
  clear hne h2
  induction secs with
  | nil => exact List.Forall₂.nil
  | cons s secs ih =>
    refine List.Forall₂.cons ?_ (ih (fun x hx => hp x (List.mem_cons_of_mem _ hx))
      (fun x hx => h1 x (List.mem_cons_of_mem _ hx)))
    exact C12_section_rows_partial table hinc window s nLook cs hcs (p s)
      (hp s List.mem_cons_self) (h1 s List.mem_cons_self)

/-- C12, error branch: a key that does not exist raises `KeyError`, unless window ∩ section is
empty, when an empty frame is yielded without looking at the file. -/
theorem C12_missing_key {α : Type} (window sec : TF) (nLook cs : Int) :
    ((window.intersection sec).empty = false →
      (loadSection (none : Option (List (Row α))) window nLook cs sec).1 = ⟨[], some .keyError⟩) ∧
    ((window.intersection sec).empty = true →
      (loadSection (none : Option (List (Row α))) window nLook cs sec).1 = ⟨[⟨[], sec, none⟩], none⟩) := by
  constructor <;> intro h <;> simp [loadSection, h, Gen.raise]

/-- The rows, window and section used in the examples below. -/
def exTable : List (Row Nat) := [(0, 7), (10, 8), (20, 9), (30, 5), (40, 6)]

/-- The hypotheses of C12–C15 hold for a table of five rows and the section [5, 35), which holds
three rows, loaded in chunks of one row (+ overlap). -/
example : Increasing exTable ∧
    (∀ t, decide (5 ≤ t ∧ t < 35) = true ↔
      Mem t (TF.blank.intersection (mk' (some 5) (some 35)))) ∧
    2 ≤ (exTable.filter (fun r => decide (5 ≤ r.1 ∧ r.1 < 35))).length ∧
    (exTable.filter (fun r => decide (5 ≤ r.1 ∧ r.1 < 35))).head? = some (10, 8) ∧
    (exTable.filter (fun r => decide (5 ≤ r.1 ∧ r.1 < 35))).getLast? = some (30, 5) ∧
    ((loadSection (some exTable) TF.blank 2 1 (mk' (some 5) (some 35))).1.out.map Chunk.rows =
      [[(10, 8), (20, 9)], [(20, 9), (30, 5)]]) := by
  refine ⟨by simp [Increasing, exTable], ?_, by decide, by decide, by decide, by decide +kernel⟩
  intro t
  simp [Mem, TF.intersection, TF.blank, mk', interStart, interEnd, TF.start, TF.stop, built, interInclude]

/-! ### C13 -/

/-- C13. For a section with at least two rows, every chunk has between 2 and chunksize + 1 rows, and
the last row of each chunk is the first row of the next. -/
theorem C13_chunk_sizes_and_overlap {α : Type} (table : List (Row α)) (hinc : Increasing table)
    (window sec : TF) (nLook cs : Int) (hcs : 0 < cs) (p : Int → Bool)
    (hp : ∀ t, p t = true ↔ Mem t (window.intersection sec))
    (h2 : 2 ≤ (table.filter (fun r => p r.1)).length) :
    (loadSection (some table) window nLook cs sec).1.out ≠ [] ∧
    (∀ c ∈ (loadSection (some table) window nLook cs sec).1.out,
      2 ≤ c.rows.length ∧ (c.rows.length : Int) ≤ cs + 1) ∧
    Consecutive SharesRow (loadSection (some table) window nLook cs sec).1.out := by
  obtain ⟨start, stop, hs, _⟩ := loadSection_spec table hinc window sec nLook cs hcs p hp h2
  refine ⟨hs.nonempty, ?_, hs.share⟩
  intro c hc
  have := hs.size c hc
  omega

/-- C13: a section without rows is delivered as one empty frame. -/
theorem C13_empty_section {α : Type} (table : List (Row α)) (hinc : Increasing table)
    (window sec : TF) (nLook cs : Int) (hcs : 0 < cs) (p : Int → Bool)
    (hp : ∀ t, p t = true ↔ Mem t (window.intersection sec))
    (h0 : table.filter (fun r => p r.1) = []) :
    (loadSection (some table) window nLook cs sec).1.err = none ∧
    (loadSection (some table) window nLook cs sec).1.out.map Chunk.rows = [[]] := by
  rcases loadSection_cases table hinc window sec nLook cs hcs p hp with h' | h' | ⟨a, b, _, h3, h4, h5, _⟩
  · obtain ⟨_, tf, h⟩ := h'; rw [h]; exact ⟨rfl, rfl⟩
  · rw [h0] at h'; simp at h'
  · have : (selectRows table a (b + 1)).length = 0 := by rw [h3, h0]; rfl
    rw [select_length] at this; omega

/-! ### C14 -/

theorem filter_head {α : Type} (table : List (Row α)) (p : Int → Bool) (a b : Nat)
    (h : selectRows table a (b + 1) = table.filter (fun r => p r.1)) (hab : a < b) (ha : a < table.length) :
    (table.filter (fun r => p r.1)).head?.map Prod.fst = some (tm table a) ∧
    (table.filter (fun r => p r.1)).getLast?.map Prod.fst = some (tm table (min b (table.length - 1))) := by
  rw [← h, select_head _ (by omega), select_last _ (by omega) ha]
  obtain ⟨r, h1, h2⟩ := get_some ha
  have e : min (b + 1) table.length - 1 = min b (table.length - 1) := by omega
  obtain ⟨q, h3, h4⟩ := get_some (table := table) (j := min b (table.length - 1)) (by omega)
  rw [e, h1, h3, h2, h4]; exact ⟨rfl, rfl⟩

/-- C14. For a section with at least two rows the chunk timeframes are half-open frames that tile
the section: the first starts at the start of window ∩ section (or at the first row if that is
open), each ends where the next starts, and the last one ends at the end of window ∩ section (or at
the last row if that is open). -/
theorem C14_timeframes_tile {α : Type} (table : List (Row α)) (hinc : Increasing table)
    (window sec : TF) (nLook cs : Int) (hcs : 0 < cs) (p : Int → Bool)
    (hp : ∀ t, p t = true ↔ Mem t (window.intersection sec))
    (first last : Row α) (h2 : 2 ≤ (table.filter (fun r => p r.1)).length)
    (hf : (table.filter (fun r => p r.1)).head? = some first)
    (hl : (table.filter (fun r => p r.1)).getLast? = some last) :
    Tiles ((window.intersection sec).start.getD first.1) ((window.intersection sec).stop.getD last.1)
      ((loadSection (some table) window nLook cs sec).1.out.map Chunk.timeframe) := by
  obtain ⟨start, stop, hs, _, h3, h4, h5, _⟩ := loadSection_spec table hinc window sec nLook cs hcs p hp h2
  obtain ⟨h6, h7⟩ := filter_head table p start stop h3 h4 h5
  rw [hf] at h6; rw [hl] at h7
  simp only [Option.map_some, Option.some.injEq] at h6 h7
  rw [h6, h7]
  exact hs.tiles

/-- C14, the error branch: loading a section with at least two rows raises (`ValueError`) exactly
when window ∩ section is unbounded on both sides and the chunk size divides the row count minus
one. In particular any bounded section loads. -/
theorem C14_load_error_iff {α : Type} (table : List (Row α)) (hinc : Increasing table)
    (window sec : TF) (nLook cs : Int) (hcs : 0 < cs) (p : Int → Bool)
    (hp : ∀ t, p t = true ↔ Mem t (window.intersection sec))
    (h2 : 2 ≤ (table.filter (fun r => p r.1)).length) :
    (loadSection (some table) window nLook cs sec).1.err =
      if (window.intersection sec).start = none ∧ (window.intersection sec).stop = none ∧
        cs ∣ (table.length : Int) - 1 then some .valueError else none := by
  obtain ⟨start, stop, hs, _, h3, h4, h5, h6⟩ := loadSection_spec table hinc window sec nLook cs hcs p hp h2
  rw [hs.err]
  rcases h6 with ⟨h6, h7⟩ | ⟨h6, h7, h8, h9⟩
  · rw [if_neg (by omega), if_neg]
    rintro ⟨h8, h9, _⟩
    rcases h6 with h6 | h6
    · exact h6 h8
    · exact h6 h9
  · have : (cs.toNat ∣ table.length - 1 - start) ↔ cs ∣ (table.length : Int) - 1 := by
      rw [h7, Nat.sub_zero, ← Int.natCast_dvd_natCast, Int.toNat_of_nonneg (by omega)]
      rw [Nat.cast_sub (by omega)]; rfl
    simp only [h6, h8, h9, this, true_and]

/-- C14, concrete witness of the failing load: five rows, chunk size 2, unbounded section. -/
theorem C14_unbounded_load_counterexample :
    (loadSection (some exTable) TF.blank 0 2 TF.blank).1.err = some .valueError ∧
    (loadSection (some exTable) TF.blank 0 3 TF.blank).1.err = none := by decide +kernel

/-! ### C15 -/

/-- C15. With `n_look_ahead_rows = n > 0`, every chunk of a section with at least two rows carries as
look-ahead exactly the (at most `n`) rows stored right after the chunk's last row; without it the
attribute is absent. -/
theorem C15_look_ahead {α : Type} (table : List (Row α)) (hinc : Increasing table)
    (window sec : TF) (nLook cs : Int) (hcs : 0 < cs) (p : Int → Bool)
    (hp : ∀ t, p t = true ↔ Mem t (window.intersection sec))
    (h2 : 2 ≤ (table.filter (fun r => p r.1)).length) :
    (0 < nLook → ∀ c ∈ (loadSection (some table) window nLook cs sec).1.out,
      LooksAhead table nLook.toNat c) ∧
    (nLook ≤ 0 → ∀ c ∈ (loadSection (some table) window nLook cs sec).1.out, c.look = none) := by
  obtain ⟨start, stop, hs, _⟩ := loadSection_spec table hinc window sec nLook cs hcs p hp h2
  exact ⟨hs.look, hs.noLook⟩

/-! ### C16 -/

/-- C16. When a load of any list of sections completes, the flag
`all_sections_smaller_than_chunksize` is false exactly when some section was delivered in more than
one chunk. -/
theorem C16_flag_truthful {α : Type} (table : List (Row α)) (hinc : Increasing table) (window : TF)
    (secs : List TF) (nLook cs : Int) (hcs : 0 < cs)
    (hne : (hdfLoad (some table) window (some secs) nLook cs).1.err = none) :
    ∃ parts : List (List (Chunk α)),
      (hdfLoad (some table) window (some secs) nLook cs).1.out = parts.flatten ∧
      parts.length = secs.length ∧
      ((hdfLoad (some table) window (some secs) nLook cs).2 = false ↔ ∃ part ∈ parts, 1 < part.length) := by
  obtain ⟨h2, h3, h4⟩ := loadSections_spec (some table) window nLook cs secs true hne
  refine ⟨secs.map (fun s => (loadSection (some table) window nLook cs s).1.out), h2, by simp, ?_⟩
  have key : ∀ s ∈ secs, ((loadSection (some table) window nLook cs s).2 = true ↔
      1 < (loadSection (some table) window nLook cs s).1.out.length) := by
    intro s hs
    have hp : ∃ p : Int → Bool, ∀ t, p t = true ↔ Mem t (window.intersection s) := by
      classical
      exact ⟨fun t => decide (Mem t (window.intersection s)), fun t => by simp⟩
    obtain ⟨p, hp⟩ := hp
    rcases loadSection_cases table hinc window s nLook cs hcs p hp with h' | h' | ⟨a, b, h5, h6, h7, h8, _⟩
    · obtain ⟨_, tf, h⟩ := h'; rw [h]; simp
    · obtain ⟨_, _, h5, h6, _⟩ := h'
      rw [h5]
      constructor
      · intro h; cases h
      · intro hl; omega
    · have hlen : 2 ≤ (table.filter (fun r => p r.1)).length := by
        rw [← h6, select_length]; omega
      obtain ⟨start, stop, hs', h9, _⟩ := loadSection_spec table hinc window s nLook cs hcs p hp hlen
      rw [h9]
      have := hs'.count (h3 s hs)
      simp only [decide_eq_true_eq]; omega
  show (loadSections (some table) window nLook cs secs true).2 = false ↔ _
  rw [h4]
  simp only [Bool.true_and, List.all_eq_false, Bool.not_eq_true', List.mem_map]
  constructor
  · rintro ⟨s, hs, h⟩
    exact ⟨_, ⟨s, hs, rfl⟩, (key s hs).1 (by simpa using h)⟩
  · rintro ⟨_, ⟨s, hs, rfl⟩, h⟩
    exact ⟨s, hs, by simpa using (key s hs).2 h⟩

end Nilmtk
