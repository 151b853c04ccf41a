import Verif.Model.Energy
import Verif.Props.HDF
import Verif.Props.CSV
/-!
C18: `power_series_all_data` reassembles the whole series.
-/
namespace Nilmtk
open TF

theorem dropOverlaps_tails {α : Type} (c : List (Row α)) (cs : List (List (Row α)))
    (rest : List (List (Row α))) (e : Int) (hsz : ∀ d ∈ c :: cs, 2 ≤ d.length)
    (hsh : Consecutive (fun a b : List (Row α) => ∃ r, a.getLast? = some r ∧ b.head? = some r) (c :: cs))
    (he : ∃ r, c.head? = some r ∧ r.1 ≤ e) :
    (dropOverlaps (some e) (c :: cs ++ rest)).flatten =
      ((c :: cs).map List.tail).flatten ++
        (dropOverlaps (((c :: cs).getLast?.bind List.getLast?).map Prod.fst) rest).flatten := by
  induction cs generalizing c e with
  | nil =>
    obtain ⟨r, h1, h2⟩ := he
    simp [dropOverlaps, trimHead, h1, h2]
  | cons d ds ih =>
    obtain ⟨r, h1, h2⟩ := he
    cases hsh with
    | cons _ _ _ hr hrest =>
      obtain ⟨q, h3, h4⟩ := hr
      have := ih d q.1 (fun x hx => hsz x (List.mem_cons_of_mem _ hx)) hrest ⟨q, h4, le_refl _⟩
      have e1 : dropOverlaps (some e) (c :: d :: ds ++ rest) =
          c.tail :: dropOverlaps (some q.1) (d :: ds ++ rest) := by
        rw [List.cons_append, dropOverlaps, h3]; simp [trimHead, h1, h2]
      rw [e1, List.flatten_cons, this]
      simp

theorem dropOverlaps_join {α : Type} (cs : List (List (Row α))) (hne : cs ≠ [])
    (rest : List (List (Row α))) (prev : Option Int) (hsz : ∀ d ∈ cs, 2 ≤ d.length)
    (hsh : Consecutive (fun a b : List (Row α) => ∃ r, a.getLast? = some r ∧ b.head? = some r) cs)
    (he : ∀ e, prev = some e → ∀ r, cs.head?.bind List.head? = some r → e < r.1) :
    (dropOverlaps prev (cs ++ rest)).flatten =
      joinOverlapping cs ++
        (dropOverlaps ((cs.getLast?.bind List.getLast?).map Prod.fst) rest).flatten := by
  cases cs with
  | nil => exact absurd rfl hne
  | cons c cs =>
    have e1 : dropOverlaps prev (c :: cs ++ rest) =
        c :: dropOverlaps (c.getLast?.map Prod.fst) (cs ++ rest) := by
      rw [List.cons_append, dropOverlaps]
      congr 1
      unfold trimHead
      cases prev with
      | none => cases c.head? <;> rfl
      | some e =>
        cases hc : c.head? with
        | none => rfl
        | some r =>
          have := he e rfl r (by simp [hc])
          simp; omega
    rw [e1, List.flatten_cons]
    cases cs with
    | nil => simp [joinOverlapping]
    | cons d ds =>
      cases hsh with
      | cons _ _ _ hr hrest =>
        obtain ⟨q, h3, h4⟩ := hr
        rw [h3, Option.map_some, dropOverlaps_tails d ds rest q.1
          (fun x hx => hsz x (List.mem_cons_of_mem _ hx)) hrest ⟨q, h4, le_refl _⟩]
        simp [joinOverlapping]

theorem dropOverlaps_separate {α : Type} (cs : List (List (Row α))) (prev : Option Int)
    (hne : ∀ c ∈ cs, c ≠ []) (hinc : Increasing cs.flatten)
    (hp : ∀ e, prev = some e → ∀ r ∈ cs.flatten, e < r.1) :
    (dropOverlaps prev cs).flatten = cs.flatten := by
  induction cs generalizing prev with
  | nil => rfl
  | cons c cs ih =>
    have hcne : c ≠ [] := hne c List.mem_cons_self
    rw [dropOverlaps, List.flatten_cons, List.flatten_cons, ih]
    · congr 1
      unfold trimHead
      cases prev with
      | none => cases c.head? <;> rfl
      | some e =>
        cases hc : c.head? with
        | none => rfl
        | some r =>
          have := hp e rfl r (by
            rw [List.flatten_cons, List.mem_append]; left; exact List.mem_of_mem_head? hc)
          simp; omega
    · exact fun x hx => hne x (List.mem_cons_of_mem _ hx)
    · rw [List.flatten_cons] at hinc
      exact (List.pairwise_append.1 hinc).2.1
    · intro e he r hr
      rw [List.flatten_cons] at hinc
      cases hl : c.getLast? with
      | none => rw [List.getLast?_eq_none_iff] at hl; exact absurd hl hcne
      | some q =>
        rw [hl] at he
        simp only [Option.map_some, Option.some.injEq] at he
        subst he
        exact (List.pairwise_append.1 hinc).2.2 q (List.mem_of_getLast? hl) r hr

/-- Rows of two parts of a table, the first wholly before the second. -/
theorem filter_or {α : Type} (table : List (Row α)) (hinc : Increasing table) (p q : Int → Bool)
    (h : ∀ x y, p x = true → q y = true → x < y) :
    table.filter (fun r => p r.1) ++ table.filter (fun r => q r.1) =
      table.filter (fun r => p r.1 || q r.1) := by
  induction table with
  | nil => rfl
  | cons a l ih =>
    have hl : Increasing l := (List.pairwise_cons.1 hinc).2
    have ha := (List.pairwise_cons.1 hinc).1
    have := ih hl
    by_cases hpa : p a.1 = true
    · have hqa : q a.1 = false := by
        cases hq : q a.1 with
        | false => rfl
        | true => exact absurd (h _ _ hpa hq) (lt_irrefl _)
      simp [hpa, hqa, ← this]
    · by_cases hqa : q a.1 = true
      · have hnil : ∀ r ∈ l, p r.1 = false := by
          intro r hr
          cases hq : p r.1 with
          | false => rfl
          | true => have := h _ _ hq hqa; have := ha r hr; omega
        have h1 : l.filter (fun r => p r.1) = [] := by
          rw [List.filter_eq_nil_iff]; intro r hr; simp [hnil r hr]
        rw [h1, List.nil_append] at this
        simp [hpa, hqa, h1, this]
      · simp [hpa, hqa, this]

theorem filter_any {α : Type} (table : List (Row α)) (hinc : Increasing table) (secs : List TF)
    (p : TF → Int → Bool)
    (hord : secs.Pairwise (fun a b => ∀ x y, p a x = true → p b y = true → x < y)) :
    (secs.map (fun s => table.filter (fun r => p s r.1))).flatten =
      table.filter (fun r => secs.any (fun s => p s r.1)) := by
  induction secs with
  | nil => simp
  | cons s secs ih =>
    obtain ⟨h1, h2⟩ := List.pairwise_cons.1 hord
    rw [List.map_cons, List.flatten_cons, ih h2,
      filter_or table hinc (p s) (fun t => secs.any (fun s => p s t))]
    · simp
    · intro x y hx hy
      rw [List.any_eq_true] at hy
      obtain ⟨b, hb, hby⟩ := hy
      exact h1 b hb x y hx hby

theorem joinOverlapping_mem {β : Type} (cs : List (List β)) (c : List β) (hc : c ∈ cs) (x : β)
    (hx : x ∈ c.tail) : x ∈ joinOverlapping cs := by
  cases cs with
  | nil => simp at hc
  | cons d ds =>
    rw [joinOverlapping, List.mem_append]
    rcases List.mem_cons.1 hc with rfl | hc
    · left; exact List.mem_of_mem_tail hx
    · right
      rw [List.mem_flatten]
      exact ⟨c.tail, List.mem_map_of_mem hc, hx⟩

theorem consecutive_map {β γ : Type} (f : β → γ) {R : β → β → Prop} {S : γ → γ → Prop}
    (h : ∀ a b, R a b → S (f a) (f b)) {l : List β} (hl : Consecutive R l) : Consecutive S (l.map f) := by
  induction hl with
  | nil => exact .nil
  | single a => exact .single _
  | cons a b l hab _ ih => exact .cons _ _ _ (h _ _ hab) ih

/-- What one section contributes to the list of non-empty series. -/
theorem section_series {α : Type} (table : List (Row α)) (hinc : Increasing table) (window sec : TF)
    (nLook cs : Int) (hcs : 0 < cs) (p : Int → Bool)
    (hp : ∀ t, p t = true ↔ Mem t (window.intersection sec))
    (h1 : (table.filter (fun r => p r.1)).length ≠ 1) :
    let part := ((loadSection (some table) window nLook cs sec).1.out.map Chunk.rows).filter
      (fun c => decide (0 < c.length))
    (part = [] ∧ table.filter (fun r => p r.1) = []) ∨
    (part ≠ [] ∧ joinOverlapping part = table.filter (fun r => p r.1) ∧ (∀ d ∈ part, 2 ≤ d.length) ∧
      Consecutive (fun a b : List (Row α) => ∃ r, a.getLast? = some r ∧ b.head? = some r) part) := by
  intro part
  by_cases h0 : table.filter (fun r => p r.1) = []
  · left
    refine ⟨?_, h0⟩
    have := (C13_empty_section table hinc window sec nLook cs hcs p hp h0).2
    simp [part, this]
  · right
    have h2 : 2 ≤ (table.filter (fun r => p r.1)).length := by
      have : 0 < (table.filter (fun r => p r.1)).length := List.length_pos_iff.2 h0
      omega
    obtain ⟨g1, g2, g3⟩ := C13_chunk_sizes_and_overlap table hinc window sec nLook cs hcs p hp h2
    have hpart : part = (loadSection (some table) window nLook cs sec).1.out.map Chunk.rows := by
      apply List.filter_eq_self.2
      intro c hc
      obtain ⟨d, hd, rfl⟩ := List.mem_map.1 hc
      have := g2 d hd
      simp only [decide_eq_true_eq]; omega
    rw [hpart]
    refine ⟨by simpa using g1, C12_section_rows_partial table hinc window sec nLook cs hcs p hp h1, ?_, ?_⟩
    · intro d hd
      obtain ⟨c, hc, rfl⟩ := List.mem_map.1 hd
      exact (g2 c hc).1
    · exact consecutive_map Chunk.rows (fun a b h => h) g3

theorem dropOverlaps_sections {α : Type} (table : List (Row α)) (hinc : Increasing table) (window : TF)
    (nLook cs : Int) (hcs : 0 < cs) (p : TF → Int → Bool) (secs : List TF)
    (hp : ∀ s ∈ secs, ∀ t, p s t = true ↔ Mem t (window.intersection s))
    (h1 : ∀ s ∈ secs, (table.filter (fun r => p s r.1)).length ≠ 1)
    (hord : secs.Pairwise (fun a b => ∀ x y, p a x = true → p b y = true → x < y))
    (prev : Option Int)
    (hprev : ∀ e, prev = some e → ∀ s ∈ secs, ∀ y, p s y = true → e < y) :
    (dropOverlaps prev (((secs.map (fun s => (loadSection (some table) window nLook cs s).1.out)).flatten.map
      Chunk.rows).filter (fun c => decide (0 < c.length)))).flatten =
    (secs.map (fun s => table.filter (fun r => p s r.1))).flatten := by
  induction secs generalizing prev with
  | nil => rfl
  | cons s secs ih =>
    obtain ⟨o1, o2⟩ := List.pairwise_cons.1 hord
    have ih' := ih (fun x hx => hp x (List.mem_cons_of_mem _ hx))
      (fun x hx => h1 x (List.mem_cons_of_mem _ hx)) o2
    have hs := section_series table hinc window s nLook cs hcs (p s) (hp s List.mem_cons_self)
      (h1 s List.mem_cons_self)
    simp only at hs
    rw [List.map_cons, List.flatten_cons, List.map_append, List.filter_append, List.map_cons,
      List.flatten_cons]
    rcases hs with ⟨e1, e2⟩ | ⟨n1, n2, n3, n4⟩
    · rw [e1, e2, List.nil_append, List.nil_append]
      exact ih' prev (fun e he x hx => hprev e he x (List.mem_cons_of_mem _ hx))
    · have hmem : ∀ r ∈ table.filter (fun r => p s r.1), p s r.1 = true := by
        intro r hr; exact (List.mem_filter.1 hr).2
      rw [dropOverlaps_join _ n1 _ prev n3 n4, n2, ih']
      · intro e he x hx y hy
        rw [Option.map_eq_some_iff] at he
        obtain ⟨q, hq, rfl⟩ := he
        rw [Option.bind_eq_some_iff] at hq
        obtain ⟨c, hc, hq⟩ := hq
        have hcm := List.mem_of_getLast? hc
        have hlen := n3 c hcm
        have hqt : q ∈ c.tail := by
          cases c with
          | nil => simp at hlen
          | cons a l =>
            cases l with
            | nil => simp at hlen
            | cons b l =>
              rw [List.getLast?_cons_cons] at hq
              exact List.mem_of_getLast? hq
        have := joinOverlapping_mem _ c hcm q hqt
        rw [n2] at this
        exact o1 x hx q.1 y (hmem q this) hy
      · intro e he r hr
        apply hprev e he s List.mem_cons_self
        apply hmem
        rw [← n2]
        rw [Option.bind_eq_some_iff] at hr
        obtain ⟨c, hc, hr⟩ := hr
        generalize hg : List.filter _ _ = part at hc n1 n2 n3 n4 ⊢
        cases part with
        | nil => simp at hc
        | cons d ds =>
          simp only [List.head?_cons, Option.some.injEq] at hc
          subst hc
          rw [joinOverlapping, List.mem_append]
          left; exact List.mem_of_mem_head? hr

/-- C18 for the HDF store. Loading any list of sections that lie one after the other, none of which
holds exactly one row, in chunks of any size: if the load does not raise, `power_series_all_data`
returns exactly the stored rows lying in some section — each once, in stored (increasing) order, with
the stored values — and `None` when there is no such row. -/
theorem C18_all_data_partial {α : Type} (table : List (Row α)) (hinc : Increasing table) (window : TF)
    (secs : List TF) (nLook cs : Int) (hcs : 0 < cs) (p : TF → Int → Bool)
    (hp : ∀ s ∈ secs, ∀ t, p s t = true ↔ Mem t (window.intersection s))
    (hord : secs.Pairwise (fun a b => ∀ x y, p a x = true → p b y = true → x < y))
    (h1 : ∀ s ∈ secs, (table.filter (fun r => p s r.1)).length ≠ 1)
    (hne : (hdfLoad (some table) window (some secs) nLook cs).1.err = none) :
    powerSeriesAllDataGen (hdfLoad (some table) window (some secs) nLook cs).1 =
      .ok (let rows := table.filter (fun r => secs.any (fun s => p s r.1))
        if rows.isEmpty then none else some rows) := by
  have h2 := (loadSections_spec (some table) window nLook cs secs true hne).1
  have h3 := dropOverlaps_sections table hinc window nLook cs hcs p secs hp h1 hord none
    (fun e he => by cases he)
  rw [filter_any table hinc secs p hord] at h3
  simp only [powerSeriesAllDataGen, hne, powerSeriesAllData]
  rw [show (hdfLoad (some table) window (some secs) nLook cs).1.out = _ from h2]
  generalize hg : List.filter _ (List.map Chunk.rows _) = part at h3 ⊢
  cases part with
  | nil =>
    simp only [dropOverlaps, List.flatten_nil] at h3
    rw [← h3]; rfl
  | cons c cs' =>
    simp only
    rw [← h3]
    have hc : c ≠ [] := by
      have : c ∈ List.filter (fun c => decide (0 < c.length)) (List.map Chunk.rows
        (List.map (fun s => (loadSection (some table) window nLook cs s).1.out) secs).flatten) := by
        rw [hg]; exact List.mem_cons_self
      rw [List.mem_filter, decide_eq_true_eq] at this
      exact List.length_pos_iff.1 this.2
    cases c with
    | nil => exact absurd rfl hc
    | cons a l => simp [dropOverlaps, trimHead]

/-- C18, consequence: the result does not depend on the chunk size or the look-ahead. -/
theorem C18_chunk_size_irrelevant {α : Type} (table : List (Row α)) (hinc : Increasing table) (window : TF)
    (secs : List TF) (nLook nLook' cs cs' : Int) (hcs : 0 < cs) (hcs' : 0 < cs') (p : TF → Int → Bool)
    (hp : ∀ s ∈ secs, ∀ t, p s t = true ↔ Mem t (window.intersection s))
    (hord : secs.Pairwise (fun a b => ∀ x y, p a x = true → p b y = true → x < y))
    (h1 : ∀ s ∈ secs, (table.filter (fun r => p s r.1)).length ≠ 1)
    (hne : (hdfLoad (some table) window (some secs) nLook cs).1.err = none)
    (hne' : (hdfLoad (some table) window (some secs) nLook' cs').1.err = none) :
    powerSeriesAllDataGen (hdfLoad (some table) window (some secs) nLook cs).1 =
      powerSeriesAllDataGen (hdfLoad (some table) window (some secs) nLook' cs').1 := by
  rw [C18_all_data_partial table hinc window secs nLook cs hcs p hp hord h1 hne,
    C18_all_data_partial table hinc window secs nLook' cs' hcs' p hp hord h1 hne']

/-- C18 for the CSV store, one section: as C18, for the rows of the section. -/
theorem C18_csv_all_data_partial {α : Type} (rows : List (Row α)) (hinc : Increasing rows) (nameLine : Bool)
    (window sec : TF) (hw : window.includeEnd = false) (hs : sec.includeEnd = false)
    (nLook cs : Int) (hcs : 0 < cs) (p : Int → Bool) (hp : ∀ t, p t = true ↔ Mem t window ∧ Mem t sec)
    (h1 : ∀ q ∈ csvPieces cs.toNat (by omega) rows, (q.filter (fun r => p r.1)).length ≠ 1) :
    powerSeriesAllDataGen (csvLoadSection (some rows) nameLine window nLook cs sec) =
      .ok (let l := rows.filter (fun r => p r.1)
        if l.isEmpty then none else some l) := by
  obtain ⟨g1, g2, g3⟩ := C17_csv_load_partial rows hinc nameLine window sec hw hs nLook cs hcs p hp h1
  simp only [powerSeriesAllDataGen, g1, powerSeriesAllData]
  have hf : ((csvLoadSection (some rows) nameLine window nLook cs sec).out.map Chunk.rows).filter
      (fun c => decide (0 < c.length)) =
      (csvLoadSection (some rows) nameLine window nLook cs sec).out.map Chunk.rows := by
    apply List.filter_eq_self.2
    intro c hc
    obtain ⟨d, hd, rfl⟩ := List.mem_map.1 hc
    obtain ⟨_, a, b, ha, _⟩ := g3 d hd
    cases hr : d.rows with
    | nil => rw [hr] at ha; simp at ha
    | cons x l => simp
  rw [hf]
  have hne : ∀ c ∈ (csvLoadSection (some rows) nameLine window nLook cs sec).out.map Chunk.rows, c ≠ [] := by
    intro c hc
    rw [← hf] at hc
    have := (List.mem_filter.1 hc).2
    rw [decide_eq_true_eq] at this
    exact List.length_pos_iff.1 this
  have hk := dropOverlaps_separate _ none hne (by
    rw [g2]; exact List.Pairwise.filter _ hinc) (fun e he => by cases he)
  rw [g2] at hk
  generalize (csvLoadSection (some rows) nameLine window nLook cs sec).out.map Chunk.rows = part at hk hne
  cases part with
  | nil => simp only [dropOverlaps, List.flatten_nil] at hk; rw [← hk]; rfl
  | cons c cs' =>
    simp only
    rw [← hk]
    cases c with
    | nil => exact absurd rfl (hne [] List.mem_cons_self)
    | cons a l => simp [dropOverlaps, trimHead]

/-- C18, error branch: an exception raised while loading is not swallowed. -/
theorem C18_error_propagates {α : Type} (g : Gen (Chunk α)) (e : Err) (h : g.err = some e) :
    powerSeriesAllDataGen g = .error e := by simp [powerSeriesAllDataGen, h]

/-- C18, limit of the claim: with overlapping sections only one row of the overlap is removed, so
timestamps are repeated. -/
theorem C18_overlapping_sections_counterexample :
    powerSeriesAllDataGen (hdfLoad (some exTable) TF.blank
      (some [mk' (some 0) (some 35), mk' (some 10) (some 45)]) 0 100).1 =
      .ok (some [(0, 7), (10, 8), (20, 9), (30, 5), (20, 9), (30, 5), (40, 6)]) := by
  have h : (hdfLoad (some exTable) TF.blank
      (some [mk' (some 0) (some 35), mk' (some 10) (some 45)]) 0 100).1 =
      ⟨[⟨[(0, 7), (10, 8), (20, 9), (30, 5)], mk' (some 0) (some 35), none⟩,
        ⟨[(10, 8), (20, 9), (30, 5), (40, 6)], mk' (some 10) (some 45), none⟩], none⟩ := by
    decide +kernel
  rw [h]; rfl

/-- The hypotheses of C18 hold for two sections of the example table, in chunks of one row. -/
example : ∃ p : TF → Int → Bool,
    (∀ s ∈ [mk' (some 0) (some 15), mk' (some 15) none], ∀ t,
      p s t = true ↔ Mem t (TF.blank.intersection s)) ∧
    ([mk' (some 0) (some 15), mk' (some 15) none] : List TF).Pairwise
      (fun a b => ∀ x y, p a x = true → p b y = true → x < y) ∧
    (∀ s ∈ [mk' (some 0) (some 15), mk' (some 15) none],
      (exTable.filter (fun r => p s r.1)).length ≠ 1) ∧
    (hdfLoad (some exTable) TF.blank (some [mk' (some 0) (some 15), mk' (some 15) none]) 0 1).1.err = none ∧
    exTable.filter (fun r => [mk' (some 0) (some 15), mk' (some 15) none].any (fun s => p s r.1)) = exTable := by
  refine ⟨fun s t => decide ((∀ a ∈ s.start, a ≤ t) ∧ (∀ b ∈ s.stop, t < b)), ?_, ?_, by decide, by decide +kernel,
    by decide⟩
  · intro s hs t
    simp only [List.mem_cons, List.not_mem_nil, or_false] at hs
    rcases hs with rfl | rfl <;>
      simp [Mem, TF.intersection, TF.blank, mk', interStart, interEnd, TF.start, TF.stop, built, interInclude]
  · simp only [List.pairwise_cons, List.mem_singleton, List.Pairwise.nil, and_true]
    refine ⟨?_, by simp⟩
    rintro b rfl x y hx hy
    simp [mk', TF.start, TF.stop] at hx hy
    omega

end Nilmtk
