import Verif.Props.MeterEnergy
import Verif.Props.StoredLoad
/-!
C112, continued: the energy of meters that measure energy instead of power.
-/
namespace Nilmtk
open TF

/-! ### Specification -/

/-- A table with one column. -/
def columnTable (pq ac : String) (l : List (Int × Rat)) : RawTable (Option Rat) := ⟨[(pq, ac)], l.map (fun r => (r.1, some r.2))⟩

/-- By how much a register rose: the last reading less the first. -/
def riseOf (vs : List Rat) : Rat := vs.getLast?.getD 0 - vs.head?.getD 0

/-! ### Any column -/

/-- From one section to the whole: `total` is what a section with at least two readings contributes. -/
theorem column_total (ms : List Measurement) (msp : Rat) (pq ac : String) (total : List (Int × Rat) → Rat)
    (l : List (Int × Rat)) (hinc : l.Pairwise (fun x y => x.1 < y.1)) (h2 : 2 ≤ l.length) (a b : Option Int)
    (cs : Int) (hcs : 0 < cs)
    (hsection : ∀ (window sec : TF) (p : Int → Bool), (∀ t, p t = true ↔ Mem t (window.intersection sec)) →
      (window.intersection sec).start ≠ none → 2 ≤ ((l.map (fun r => (r.1, some r.2))).filter (fun r => p r.1)).length →
      ∃ res, computeEnergy (columnTable pq ac l) ms msp window [sec] cs = .ok res ∧
        res.combined = [(acNamed ac, total (((l.map (fun r => (r.1, some r.2))).filter (fun r => p r.1)).map (fun r => (r.1, r.2.getD 0))))]) :
    meterTotalEnergy (some (columnTable pq ac l)) ms msp (mk' a b) none cs =
      .ok (if (l.filter (fun r => between a b r.1)).length < 2 then []
        else [(acNamed ac, total (l.filter (fun r => between a b r.1)))]) := by
  set rows : List (Row (Option Rat)) := l.map (fun r => (r.1, some r.2)) with hrows
  have hi : Increasing rows := by
    unfold Increasing
    rw [hrows, List.pairwise_map]
    exact hinc
  obtain ⟨x, mid, y, rfl⟩ : ∃ x mid y, l = x :: (mid ++ [y]) := by
    cases l with
    | nil => simp at h2
    | cons x l =>
      rcases List.eq_nil_or_concat l with rfl | ⟨mid, y, rfl⟩
      · simp at h2
      · exact ⟨x, mid, y, by simp⟩
  have hxy : x.1 < y.1 := (List.pairwise_cons.1 hinc).1 y (by simp)
  have hin : ∀ r ∈ x :: (mid ++ [y]), x.1 ≤ r.1 ∧ r.1 ≤ y.1 := by
    intro r hr
    constructor
    · rcases List.mem_cons.1 hr with rfl | hr
      · exact le_refl _
      · exact le_of_lt ((List.pairwise_cons.1 hinc).1 r hr)
    · rw [← List.cons_append] at hr hinc
      rcases List.mem_append.1 hr with hr | hr
      · exact le_of_lt ((List.pairwise_append.1 hinc).2.2 r hr y (by simp))
      · simp only [List.mem_singleton] at hr; subst hr; exact le_refl _
  have htf : tableTimeframe rows (mk' a b) = .ok ((mk' a b).intersection (mk' (some x.1) (some y.1))) := by
    unfold tableTimeframe
    have hh : rows.head? = some (x.1, some x.2) := by rw [hrows]; rfl
    have hl : rows.getLast? = some (y.1, some y.2) := by
      rw [hrows, List.getLast?_map, ← List.cons_append, List.getLast?_append]; rfl
    rw [hh, hl]
    simp only [ctor_two _ _ hxy]
  have hfilter : ∀ p : Int → Bool, (∀ r ∈ x :: (mid ++ [y]), p r.1 = between a b r.1) →
      rows.filter (fun r => p r.1) = ((x :: (mid ++ [y])).filter (fun r => between a b r.1)).map (fun r => (r.1, some r.2)) := by
    intro p hp
    rw [hrows, List.filter_map]
    congr 1
    apply List.filter_congr
    intro r hr
    exact hp r hr
  have hsec : statSections (columnTable pq ac (x :: (mid ++ [y]))).rows (mk' a b) none = .ok
      ([{ (mk' a b).intersection (mk' (some x.1) (some y.1)) with includeEnd := true }].filter (fun s => !s.empty)) := by
    unfold statSections
    have : (columnTable pq ac (x :: (mid ++ [y]))).rows = rows := rfl
    rw [this, htf]
    exact sectionsToCompute_one _ _
  unfold meterTotalEnergy
  simp only [hsec]
  rcases Bool.eq_false_or_eq_true ((mk' a b).intersection (mk' (some x.1) (some y.1))).empty with he | he
  · rw [List.filter_cons_of_neg (by simp [he]), List.filter_nil]
    simp only
    rw [if_pos]
    have huniq : ∀ r ∈ (x :: (mid ++ [y])).filter (fun r => between a b r.1),
        ∀ q ∈ (x :: (mid ++ [y])).filter (fun r => between a b r.1), r.1 = q.1 := by
      intro r hr q hq
      rw [List.mem_filter] at hr hq
      exact default_section_empty a b x.1 y.1 he _ _ (hin r hr.1).1 (hin r hr.1).2 hr.2 (hin q hq.1).1 (hin q hq.1).2 hq.2
    have hpw := hinc.filter (fun r => between a b r.1)
    generalize (x :: (mid ++ [y])).filter (fun r => between a b r.1) = k at huniq hpw
    match k, hpw with
    | [], _ => simp
    | [_], _ => simp
    | r :: q :: k, hpw =>
      exfalso
      have h3 := huniq r (by simp) q (by simp)
      have h4 := (List.pairwise_cons.1 hpw).1 q (by simp)
      omega
  · rw [List.filter_cons_of_pos (by simp [he]), List.filter_nil]
    simp only
    obtain ⟨s, e, hse, heq, hmem⟩ := default_section a b x.1 y.1 he
    set p : Int → Bool := fun t => decide (x.1 ≤ t) && decide (t ≤ y.1) && between a b t with hpdef
    have hp : ∀ t, p t = true ↔
        Mem t ((mk' a b).intersection { (mk' a b).intersection (mk' (some x.1) (some y.1)) with includeEnd := true }) := by
      intro t
      rw [heq, hmem]
      simp [hpdef, and_assoc]
    have hfil := hfilter p (by
      intro r hr
      obtain ⟨g1, g2⟩ := hin r hr
      simp [hpdef, g1, g2])
    by_cases hfew : ((x :: (mid ++ [y])).filter (fun r => between a b r.1)).length < 2
    · obtain ⟨res, e1, e2⟩ := section_nothing ms msp [(pq, ac)] rows hi (mk' a b) _ cs hcs p hp (by rw [heq]; rfl) s e
        (by rw [heq]; rfl) (by rw [heq]; rfl) hse (by rw [hfil, List.length_map]; exact hfew)
      have e1' : computeEnergy (columnTable pq ac (x :: (mid ++ [y]))) ms msp (mk' a b)
        [{ (mk' a b).intersection (mk' (some x.1) (some y.1)) with includeEnd := true }] cs = .ok res := e1
      rw [if_pos hfew]
      simp only [e1', e2]
    · obtain ⟨res, e1, e2⟩ := hsection (mk' a b) _ p hp (by rw [heq]; simp [built, TF.start])
        (by rw [hfil, List.length_map]; omega)
      have e1' : computeEnergy (columnTable pq ac (x :: (mid ++ [y]))) ms msp (mk' a b)
        [{ (mk' a b).intersection (mk' (some x.1) (some y.1)) with includeEnd := true }] cs = .ok res := e1
      rw [if_neg hfew]
      simp only [e1', e2]
      rw [hfil, List.map_map]
      simp only [Function.comp_def, Option.getD_some]
      rw [List.map_id']

/-- The chunks of a section with two readings. -/
theorem section_chunks (f : Rat → Rat) (rows : List (Row (Option Rat)))
    (hinc : Increasing rows) (window sec : TF) (cs : Int) (hcs : 0 < cs) (p : Int → Bool)
    (hp : ∀ t, p t = true ↔ Mem t (window.intersection sec)) (hb : (window.intersection sec).start ≠ none)
    (h2 : 2 ≤ (rows.filter (fun r => p r.1)).length) (hnum : ∀ r ∈ rows, p r.1 = true → r.2 ≠ none) :
    ∃ (out : List (Chunk (Option Rat))) (s e : Int), (loadSection (some rows) window 0 cs sec).1 = ⟨out, none⟩ ∧ out ≠ [] ∧
      Tiles s e (out.map Chunk.timeframe) ∧ (∀ c ∈ out, 2 ≤ c.rows.length) ∧
      joinOverlapping (out.map Chunk.rows) = rows.filter (fun r => p r.1) ∧
      Consecutive SharesReading (out.map (fun c => c.rows.map (fun r => (r.1, r.2.map f)))) := by
  obtain ⟨start, stop, hs, _, h3, h4, h5, _⟩ := loadSection_spec rows hinc window sec 0 cs hcs p hp h2
  have herr : (loadSection (some rows) window 0 cs sec).1.err = none := by
    rw [C14_load_error_iff rows hinc window sec 0 cs hcs p hp h2, if_neg (fun h => hb h.1)]
  set out := (loadSection (some rows) window 0 cs sec).1.out with hout
  have htiles := hs.tiles
  rw [← hout, if_pos rfl] at htiles
  have hshare : Consecutive SharesReading (out.map (fun c => c.rows.map (fun r => (r.1, r.2.map f)))) := by
    have hj := hs.joined
    rw [h3, ← hout] at hj
    have : Consecutive (fun c d : Chunk (Option Rat) => SharesReading (c.rows.map (fun r => (r.1, r.2.map f)))
        (d.rows.map (fun r => (r.1, r.2.map f)))) out := by
      refine consecutive_imp (fun c => c.rows.tail ≠ [] ∧ ∀ r ∈ c.rows.tail, r ∈ rows ∧ p r.1 = true) ?_ ?_ hs.share
      · intro c hc
        refine ⟨?_, ?_⟩
        · have := (hs.size c hc).1
          intro h; have hl := congrArg List.length h; simp at hl; omega
        · intro r hr
          have := joinOverlapping_mem (out.map Chunk.rows) c.rows (List.mem_map_of_mem hc) r hr
          rw [hj] at this
          exact List.mem_filter.1 this
      · rintro c d ⟨q1, q2⟩ ⟨r, k1, k2⟩
        have hr : r ∈ c.rows.tail := by
          cases hcr : c.rows with
          | nil => rw [hcr] at q1; simp at q1
          | cons x l =>
            rw [hcr] at q1 k1
            cases l with
            | nil => simp at q1
            | cons y l => rw [List.getLast?_cons_cons] at k1; exact List.mem_of_getLast? k1
        obtain ⟨m1, m2⟩ := q2 r hr
        obtain ⟨tm', v⟩ := r
        cases v with
        | none => exact absurd rfl (hnum _ m1 m2)
        | some v =>
          refine ⟨tm', f v, ?_, ?_⟩
          · rw [List.getLast?_map, k1]; rfl
          · rw [List.head?_map, k2]; rfl
    clear_value out
    clear * - this
    induction this with
    | nil => exact .nil
    | single a => exact .single _
    | cons a b l h _ ih => exact .cons _ _ _ h ih
  have hj := hs.joined
  rw [h3, ← hout] at hj
  refine ⟨out, _, _, ?_, hs.nonempty, htiles, fun c hc => (hs.size c hc).1, hj, hshare⟩
  cases hl : (loadSection (some rows) window 0 cs sec).1 with
  | mk o e =>
    rw [hl] at herr hout
    simp only at herr hout
    rw [herr, hout]

/-- What the chunks of a section give together. -/
theorem section_sum (ms : List Measurement) (msp : Rat) (pq ac : String) (hac : acNamed ac ∈ acTypes) (rows : List (Row (Option Rat)))
    (window sec : TF) (cs : Int) (out : List (Chunk (Option Rat))) (s e : Int)
    (hout : (loadSection (some rows) window 0 cs sec).1 = ⟨out, none⟩) (hne : out ≠ [])
    (htiles : Tiles s e (out.map Chunk.timeframe)) (en : List (Row (Option Rat)) → Rat)
    (hce : ∀ c ∈ out, chunkEnergy ms msp [(pq, ac)] c.rows = .ok [(acNamed ac, some (en c.rows))]) :
    ∃ res, computeEnergy ⟨[(pq, ac)], rows⟩ ms msp window [sec] cs = .ok res ∧
      res.combined = [(acNamed ac, (out.map (fun c => en c.rows)).sum)] := by
  have hone := loadSections_one (some rows) window 0 cs sec (by rw [hout])
  unfold computeEnergy
  simp only [hone, hout]
  rw [energyOfChunks_eq ms msp _ (fun r => [(acNamed ac, some (en r))]) out hce]
  obtain ⟨t, e1, t', e2, e3⟩ := one_column_total (acNamed ac) hac (out.map (fun c => (c.timeframe, en c.rows)))
    (by intro h; exact hne (List.map_eq_nil_iff.1 h)) _ _ (by
      rw [List.map_map]; exact htiles)
  rw [List.map_map] at e1
  have e1' : appendChunks ⟨[], []⟩ (out.map (fun c => (c.timeframe, [(acNamed ac, some (en c.rows))]))) = .ok t := e1
  rw [e1']
  refine ⟨t', e2, ?_⟩
  rw [e3, List.map_map]
  rfl

theorem chunkEnergy_column (ms : List Measurement) (msp : Rat) (pq ac : String) (f : Rat → Rat) (hf : LimitedBy ms (pq, ac) f)
    (rows : List (Row (Option Rat))) (hne : rows ≠ []) :
    chunkEnergy ms msp [(pq, ac)] rows = getTotalEnergy msp [((pqNamed pq, acNamed ac), rows.map (fun r => (r.1, r.2.map f)))] := by
  obtain ⟨g1, g2, g3⟩ := clipOne_limited ms _ f hf
  have hclip : ∀ x, clipOne ms (pq, ac) x = x.map f := by
    intro x; cases x with
    | none => exact g2
    | some v => exact g1 v
  unfold chunkEnergy chunkColumns
  rw [if_neg hne, List.filter_cons_of_pos (by simpa using g3), List.filter_nil, List.map_singleton,
    clipChunk_eq _ _ _ _ (by simp), List.map_singleton, clipCol_one, List.map_singleton]
  dsimp only
  rw [zip_times]
  simp only [hclip]

/-! ### Cumulative energy -/

theorem totalEnergy_cumulative (msp : Rat) (A : AC) (hA : A ∈ acTypes) (s : Series) (d : Rat) (h : lastMinusFirst s = .ok (some d)) :
    getTotalEnergy msp [((.cumulativeEnergy, A), s)] = .ok [(A, some d)] := by
  have hsel : selectedColumns [(PQ.cumulativeEnergy, A)] = [(PQ.cumulativeEnergy, A)] := by
    simp only [acTypes, List.mem_cons, List.not_mem_nil, or_false] at hA
    rcases hA with rfl | rfl | rfl <;> rfl
  unfold getTotalEnergy
  rw [List.map_singleton, hsel]
  simp only [energyLoop, energyOfColumn, Frame.col, List.lookup_cons, beq_self_eq_true, Option.getD_some, h]

/-- By how much the register rose in a chunk. -/
def chunkRise (f : Rat → Rat) (rows : List (Row (Option Rat))) : Rat :=
  (lastMinusFirst (rows.map (fun r => (r.1, r.2.map f)))).toOption.join.getD 0

theorem joined_ends {β : Type} (c : List β) (cs : List (List β)) (h : ∀ d ∈ c :: cs, 2 ≤ d.length) :
    (joinOverlapping (c :: cs)).head? = c.head? ∧ (joinOverlapping (c :: cs)).getLast? = (c :: cs).getLast?.bind List.getLast? := by
  have hc := h c List.mem_cons_self
  constructor
  · cases c with
    | nil => simp at hc
    | cons x c => rfl
  · unfold joinOverlapping
    rcases List.eq_nil_or_concat cs with rfl | ⟨ds, d, rfl⟩
    · simp
    · have hd := h d (by simp)
      obtain ⟨x, y, d', rfl⟩ : ∃ x y d', d = x :: y :: d' := by
        cases d with
        | nil => simp at hd
        | cons x d =>
          cases d with
          | nil => simp at hd
          | cons y d => exact ⟨x, y, d, rfl⟩
      rw [List.concat_eq_append]
      dsimp only
      rw [List.map_append, List.flatten_append, ← List.append_assoc, ← List.cons_append, List.getLast?_append,
        List.getLast?_append]
      have e1 : (c :: ds ++ [x :: y :: d']).getLast? = some (x :: y :: d') := by
        rw [List.getLast?_append]
        rfl
      rw [e1, Option.bind_some, List.getLast?_cons_cons, List.map_singleton, List.flatten_singleton, List.tail_cons,
        List.getLast?_eq_some_getLast (List.cons_ne_nil y d')]
      rfl

/-- C112, for a meter with a register. The energy of a meter that measures cumulative energy is the last reading in the window less the
first, limited as the device says; whatever the chunk size. With fewer than two readings nothing is reported. -/
theorem C112_cumulative_partial (ms : List Measurement) (msp : Rat) (ac : String)
    (hac : ac = "active" ∨ ac = "apparent" ∨ ac = "reactive") (f : Rat → Rat) (hf : LimitedBy ms ("cumulative energy", ac) f)
    (l : List (Int × Rat)) (hinc : l.Pairwise (fun x y => x.1 < y.1)) (h2 : 2 ≤ l.length) (a b : Option Int)
    (cs : Int) (hcs : 0 < cs) :
    meterTotalEnergy (some (columnTable "cumulative energy" ac l)) ms msp (mk' a b) none cs =
      .ok (if (l.filter (fun r => between a b r.1)).length < 2 then []
        else [(acNamed ac, riseOf ((l.filter (fun r => between a b r.1)).map (fun r => f r.2)))]) := by
  have hac' : acNamed ac ∈ acTypes := by rcases hac with rfl | rfl | rfl <;> decide
  refine column_total ms msp "cumulative energy" ac (fun k => riseOf (k.map (fun r => f r.2))) l hinc h2 a b cs hcs ?_
  intro window sec p hp hb hlen
  have hi : Increasing (l.map (fun r => (r.1, some r.2))) := by
    unfold Increasing
    rw [List.pairwise_map]
    exact hinc
  obtain ⟨out, s, e, h1, hne, ht, hsz, hj, hsh⟩ := section_chunks f (l.map (fun r => (r.1, some r.2))) hi window sec cs hcs p hp hb hlen (by
    intro r hr _
    obtain ⟨q, _, rfl⟩ := List.mem_map.1 hr
    simp)
  set k := (l.map (fun r => (r.1, some r.2))).filter (fun r => p r.1) with hk
  have hsome : ∀ r ∈ k, ∃ v, r.2 = some v := by
    intro r hr
    obtain ⟨q, _, rfl⟩ := List.mem_map.1 (List.mem_filter.1 hr).1
    exact ⟨_, rfl⟩
  cases hout : out with
  | nil => exact absurd hout hne
  | cons c cs' =>
    rw [hout] at hj hsh
    obtain ⟨j1, j2⟩ := joined_ends c.rows (cs'.map Chunk.rows) (by
      intro d hd
      rw [← List.map_cons (f := Chunk.rows)] at hd
      obtain ⟨x, hx, rfl⟩ := List.mem_map.1 hd
      exact hsz x (by rw [hout]; exact hx))
    rw [← List.map_cons (f := Chunk.rows), hj] at j1 j2
    have hkne : k ≠ [] := by intro h; rw [h] at hlen; simp at hlen
    obtain ⟨r0, hr0⟩ : ∃ r0, k.head? = some r0 := by
      cases hkc : k with
      | nil => exact absurd hkc hkne
      | cons r0 k' => exact ⟨r0, rfl⟩
    obtain ⟨r1, hr1⟩ : ∃ r1, k.getLast? = some r1 := ⟨_, List.getLast?_eq_some_getLast hkne⟩
    obtain ⟨v0, hv0⟩ := hsome r0 (List.mem_of_head? hr0)
    obtain ⟨v1, hv1⟩ := hsome r1 (List.mem_of_getLast? hr1)
    obtain ⟨ds, d1, d2⟩ := C19_cumulative_adds_up (c.rows.map (fun r => (r.1, r.2.map f)))
      (cs'.map (fun c => c.rows.map (fun r => (r.1, r.2.map f)))) (by rw [List.map_cons] at hsh; exact hsh) r0.1 r1.1 (f v0) (f v1)
      (by rw [List.head?_map, ← j1, hr0, Option.map_some, hv0]; rfl)
      (by
        rw [← List.map_cons (f := fun c : Chunk (Option Rat) => c.rows.map (fun r => (r.1, r.2.map f))), List.getLast?_map]
        rw [hr1, List.getLast?_map] at j2
        cases hl : (c :: cs').getLast? with
        | none => rw [hl] at j2; simp at j2
        | some x =>
          rw [hl] at j2
          simp only [Option.map_some, Option.bind_some] at j2 ⊢
          rw [List.getLast?_map, ← j2, Option.map_some, hv1]
          rfl)
    rw [← List.map_cons (f := fun c : Chunk (Option Rat) => c.rows.map (fun r => (r.1, r.2.map f)))] at d1
    have hval : ∀ x ∈ out, ∃ d, lastMinusFirst (x.rows.map (fun r => (r.1, r.2.map f))) = .ok (some d) := by
      intro x hx
      rw [hout] at hx
      have : lastMinusFirst (x.rows.map (fun r => (r.1, r.2.map f))) ∈ ds.map (fun d => Except.ok (some d)) := by
        rw [← d1]
        exact List.mem_map_of_mem (List.mem_map.2 ⟨x, hx, rfl⟩)
      obtain ⟨d, _, hd⟩ := List.mem_map.1 this
      exact ⟨d, hd.symm⟩
    obtain ⟨res, e1, e2⟩ := section_sum ms msp "cumulative energy" ac hac' _ window sec cs out s e h1 hne ht (chunkRise f) (by
      intro x hx
      rw [chunkEnergy_column ms msp _ ac f hf x.rows (by intro h; have := hsz x hx; rw [h] at this; simp at this)]
      obtain ⟨d, hd⟩ := hval x hx
      have : chunkRise f x.rows = d := by unfold chunkRise; rw [hd]; rfl
      rw [this]
      exact totalEnergy_cumulative msp _ hac' _ d hd)
    refine ⟨res, e1, ?_⟩
    rw [e2]
    congr 2
    have hsum : (out.map (fun c => chunkRise f c.rows)).sum = ds.sum := by
      congr 1
      rw [hout]
      have : (c :: cs').map (fun c => chunkRise f c.rows) =
          (((c :: cs').map (fun c => c.rows.map (fun r => (r.1, r.2.map f)))).map lastMinusFirst).map
            (fun o => o.toOption.join.getD 0) := by
        rw [List.map_map, List.map_map]
        rfl
      rw [this, d1, List.map_map]
      exact List.map_id' ds
    rw [hsum, d2]
    unfold riseOf
    rw [List.map_map, List.getLast?_map, List.head?_map, hr0, hr1]
    simp [hv0, hv1]

/-! ### Energy per interval -/

theorem totalEnergy_energy (msp : Rat) (A : AC) (hA : A ∈ acTypes) (s : Series) :
    getTotalEnergy msp [((.energy, A), s)] = .ok [(A, some (seriesSum s))] := by
  simp only [acTypes, List.mem_cons, List.not_mem_nil, or_false] at hA
  rcases hA with rfl | rfl | rfl <;> rfl

/-- C112, for a meter that measures energy per interval: the sum of the readings in the window, limited as the device says, if they fit
into one chunk. With fewer than two readings nothing is reported. -/
theorem C112_energy_partial (ms : List Measurement) (msp : Rat) (ac : String)
    (hac : ac = "active" ∨ ac = "apparent" ∨ ac = "reactive") (f : Rat → Rat) (hf : LimitedBy ms ("energy", ac) f)
    (l : List (Int × Rat)) (hinc : l.Pairwise (fun x y => x.1 < y.1)) (h2 : 2 ≤ l.length) (a b : Option Int)
    (cs : Int) (hcs : 0 < cs) (hfit : (l.length : Int) ≤ cs + 1) :
    meterTotalEnergy (some (columnTable "energy" ac l)) ms msp (mk' a b) none cs =
      .ok (if (l.filter (fun r => between a b r.1)).length < 2 then []
        else [(acNamed ac, ((l.filter (fun r => between a b r.1)).map (fun r => f r.2)).sum)]) := by
  have hac' : acNamed ac ∈ acTypes := by rcases hac with rfl | rfl | rfl <;> decide
  refine column_total ms msp "energy" ac (fun k => (k.map (fun r => f r.2)).sum) l hinc h2 a b cs hcs ?_
  intro window sec p hp hb hlen
  have hi : Increasing (l.map (fun r => (r.1, some r.2))) := by
    unfold Increasing
    rw [List.pairwise_map]
    exact hinc
  obtain ⟨out, s, e, h1, hne, ht, hsz, hj, -⟩ := section_chunks f (l.map (fun r => (r.1, some r.2))) hi window sec cs hcs p hp hb hlen (by
    intro r hr _
    obtain ⟨q, _, rfl⟩ := List.mem_map.1 hr
    simp)
  obtain ⟨tf, _, _, rest, g1, -⟩ := first_chunk _ hi window sec cs hcs p hp hlen
  set k := (l.map (fun r => (r.1, some r.2))).filter (fun r => p r.1) with hk
  have hkl : k.length ≤ l.length := by
    rw [hk]
    exact (List.length_filter_le _ _).trans (by rw [List.length_map])
  rw [h1] at g1
  simp only at g1
  rw [List.take_of_length_le (by omega)] at g1
  have hrest : rest = [] := by
    cases rest with
    | nil => rfl
    | cons d rest =>
      exfalso
      rw [g1] at hj hsz
      have hd := hsz d (by simp)
      have := congrArg List.length hj
      simp only [List.map_cons, joinOverlapping, List.length_append, List.flatten_cons, List.length_tail] at this
      omega
  subst hrest
  obtain ⟨res, e1, e2⟩ := section_sum ms msp "energy" ac hac' _ window sec cs out s e h1 hne ht
    (fun rows => seriesSum (rows.map (fun r => (r.1, r.2.map f)))) (by
      intro x hx
      rw [chunkEnergy_column ms msp _ ac f hf x.rows (by intro h; have := hsz x hx; rw [h] at this; simp at this)]
      exact totalEnergy_energy msp _ hac' _)
  refine ⟨res, e1, ?_⟩
  rw [e2, g1]
  congr 2
  simp only [List.map_cons, List.map_nil, List.sum_cons, List.sum_nil, add_zero]
  have hsome : ∀ r ∈ k, ∃ v, r.2 = some v := by
    intro r hr
    obtain ⟨q, _, rfl⟩ := List.mem_map.1 (List.mem_filter.1 hr).1
    exact ⟨_, rfl⟩
  clear * - hsome
  generalize k = k at hsome
  induction k with
  | nil => rfl
  | cons r k ih =>
    obtain ⟨t, v⟩ := r
    obtain ⟨v', hv⟩ := hsome _ List.mem_cons_self
    simp only at hv
    subst hv
    have := ih (fun x hx => hsome x (List.mem_cons_of_mem _ hx))
    unfold seriesSum at this ⊢
    simp only [List.map_cons, Option.map_some, dropna, List.sum_cons, Option.getD_some] at this ⊢
    rw [← this]

/-! ### Examples -/

/-- The measurements of a meter with a register. -/
def registerMeasures : List Measurement := [⟨"cumulative energy", some "active", none, none⟩, ⟨"energy", some "active", some 0, some 5⟩]

theorem register_limited : LimitedBy registerMeasures ("cumulative energy", "active") id ∧
    LimitedBy registerMeasures ("energy", "active") (fun v => max 0 (min v 5)) :=
  ⟨⟨[], _, [⟨"energy", some "active", some 0, some 5⟩], rfl, by simp, rfl, rfl, .inr ⟨.inl rfl, fun _ => rfl⟩⟩,
    ⟨[⟨"cumulative energy", some "active", none, none⟩], _, [], rfl, by simp, rfl, rfl, .inl ⟨0, 5, rfl, rfl, by norm_num, fun _ => rfl⟩⟩⟩

/-- A register that reads 10, 12, 15, 19, in chunks of one; from the second reading on it rose by 7. -/
example : meterTotalEnergy (some (columnTable "cumulative energy" "active" [(0, 10), (5, 12), (9, 15), (20, 19)])) registerMeasures 1
    (mk' (some 3) none) none 1 = .ok [(.active, 7)] := by
  rw [C112_cumulative_partial registerMeasures 1 "active" (.inl rfl) id register_limited.1 _ (by decide) (by decide) _ _ 1 (by decide)]
  decide +kernel

/-- Energy of 1, 2 and 9 (at most 5) per interval. -/
example : meterTotalEnergy (some (columnTable "energy" "active" [(0, 1), (5, 2), (9, 9)])) registerMeasures 1
    (mk' none none) none 2 = .ok [(.active, 8)] := by
  rw [C112_energy_partial registerMeasures 1 "active" (.inl rfl) _ register_limited.2 _ (by decide) (by decide) _ _ 2 (by decide) (by decide)]
  decide +kernel

/-- C112, negation for energy per interval in several chunks: the reading that two chunks share counts twice. -/
theorem C112_energy_counterexample :
    meterTotalEnergy (some (columnTable "energy" "active" [(0, 1), (5, 2), (9, 3)])) registerMeasures 1 (mk' none none) none 2 =
      .ok [(.active, 6)] ∧
    meterTotalEnergy (some (columnTable "energy" "active" [(0, 1), (5, 2), (9, 3)])) registerMeasures 1 (mk' none none) none 1 =
      .ok [(.active, 8)] := by
  decide +kernel

/-- C112. A column that is no energy at all, such as voltage, gives no energy. -/
theorem C112_other_counterexample :
    meterTotalEnergy (some (columnTable "voltage" "" [(0, 230), (5, 231)])) [⟨"voltage", none, none, none⟩] 1 (mk' none none) none 100 =
      .ok [] := by
  decide +kernel

end Nilmtk
