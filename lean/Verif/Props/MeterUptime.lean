import Verif.Model.MeterUptime
import Verif.Props.MeterEnergy
import Verif.Props.GoodSections
import Verif.Lemmas.TimeFrameGroup
/-!
C113: from the files of REDD to the uptime of a meter.
-/
namespace Nilmtk
open TF

/-! ### Specification -/

/-- The time covered by readings: the interval between two successive readings counts if it is not longer than `msp`. -/
def coveredTime (msp : Int) (l : List Int) : Int := ((l.zip l.tail).map (fun p => if p.2 - p.1 ≤ msp then p.2 - p.1 else 0)).sum

/-- The time covered by readings in a window: the interval between two successive readings counts if it is not longer than `msp`
and begins within the window; what is after the window does not count. -/
def coveredWithin (msp : Int) (a b : Option Int) (l : List Int) : Int :=
  ((l.zip l.tail).map (fun p => if between a b p.1 = true ∧ p.2 - p.1 ≤ msp then (b.map (min p.2)).getD p.2 - p.1 else 0)).sum

/-! ### Sections of runs -/

theorem coveredTime_cons (msp x y : Int) (l : List Int) :
    coveredTime msp (x :: y :: l) = (if y - x ≤ msp then y - x else 0) + coveredTime msp (y :: l) := by
  simp [coveredTime]

theorem coveredTime_gapfree (msp x a : Int) (l : List Int) (h : GapFree msp (x :: l)) (ha : (x :: l).getLast? = some a) :
    coveredTime msp (x :: l) = a - x := by
  induction l generalizing x with
  | nil => simp at ha; subst ha; simp [coveredTime]
  | cons y l ih =>
    rw [coveredTime_cons, if_pos h.1, ih y h.2 (by rw [List.getLast?_cons_cons] at ha; exact ha)]
    omega

theorem coveredTime_append (msp a b : Int) (r idx : List Int) (ha : r.getLast? = some a) (hb : b - a > msp) :
    coveredTime msp (r ++ b :: idx) = coveredTime msp r + coveredTime msp (b :: idx) := by
  induction r with
  | nil => simp at ha
  | cons x r ih =>
    cases r with
    | nil =>
      simp at ha; subst ha
      rw [List.singleton_append, coveredTime_cons, if_neg (by omega)]
      simp [coveredTime]
    | cons y r =>
      rw [List.cons_append, List.cons_append, coveredTime_cons, coveredTime_cons, ← List.cons_append,
        ih (by rw [List.getLast?_cons_cons] at ha; exact ha)]
      omega

theorem timedelta_mk (s e : Int) (i : Bool) : ({ mk' (some s) (some e) with includeEnd := i } : TF).timedelta = some (e - s) := rfl

theorem runSection_covered (msp a : Int) (r : List Int) (hg : GapFree msp r) (ha : r.getLast? = some a) :
    (∀ f ∈ runSection false false r, f.timedelta ≠ none) ∧ tdSum (runSection false false r) = coveredTime msp r := by
  cases r with
  | nil => simp at ha
  | cons x l =>
    rw [coveredTime_gapfree msp x a l hg ha]
    unfold runSection
    by_cases h2 : 2 ≤ (x :: l).length
    · rw [if_pos (Or.inl h2)]
      simp only [Bool.false_eq_true, if_false, List.head?_cons, ha]
      refine ⟨?_, ?_⟩
      · intro f hf
        rw [List.mem_singleton] at hf
        subst hf
        rw [show (mk' (some x) (some a)).timedelta = some (a - x) from rfl]
        simp
      · simp [tdSum, show (mk' (some x) (some a)).timedelta = some (a - x) from rfl]
    · rw [if_neg (by simpa using h2)]
      have : l = [] := by
        cases l with
        | nil => rfl
        | cons => simp at h2
      subst this
      simp at ha
      subst ha
      simp [tdSum]

theorem runSections_covered (msp : Int) (idx : List Int) (runs : List (List Int)) (h : MaximalRuns msp idx runs) :
    (∀ f ∈ runSections false false runs, f.timedelta ≠ none) ∧ tdSum (runSections false false runs) = coveredTime msp idx := by
  induction h with
  | nil => simp [runSections, tdSum, coveredTime]
  | single r hne hg =>
    exact runSection_covered msp _ r hg (List.getLast?_eq_some_getLast hne)
  | cons r a b idx runs hg ha hb hr ih =>
    obtain ⟨q, qs, rfl⟩ : ∃ q qs, runs = q :: qs := by
      cases runs with
      | nil => exact absurd (maximalRuns_nil hr) (by simp)
      | cons q qs => exact ⟨q, qs, rfl⟩
    obtain ⟨g1, g2⟩ := runSection_covered msp a r hg ha
    simp only [runSections]
    refine ⟨?_, ?_⟩
    · intro f hf
      rcases List.mem_append.1 hf with hf | hf
      · exact g1 f hf
      · exact ih.1 f hf
    · rw [tdSum_append, g2, ih.2, coveredTime_append msp a b r idx ha hb]

theorem runSections_open (msp : Int) (idx : List Int) (runs : List (List Int)) (h : MaximalRuns msp idx runs) (last : Int)
    (hl : idx.getLast? = some last) :
    ∃ fs s, runSections false true runs = fs ++ [mk' (some s) none] ∧ (∀ f ∈ fs, f.timedelta ≠ none) ∧
      tdSum fs + (last - s) = coveredTime msp idx := by
  induction h with
  | nil => simp at hl
  | single r hne hg =>
    cases r with
    | nil => simp at hl
    | cons x l =>
      refine ⟨[], x, by simp [runSections, runSection], by simp, ?_⟩
      rw [coveredTime_gapfree msp x last l hg hl]
      simp [tdSum]
  | cons r a b idx runs hg ha hb hr ih =>
    obtain ⟨q, qs, rfl⟩ : ∃ q qs, runs = q :: qs := by
      cases runs with
      | nil => exact absurd (maximalRuns_nil hr) (by simp)
      | cons q qs => exact ⟨q, qs, rfl⟩
    obtain ⟨g1, g2⟩ := runSection_covered msp a r hg ha
    obtain ⟨fs, s, i1, i2, i3⟩ := ih (by
      rw [List.getLast?_append] at hl
      cases hx : (b :: idx).getLast? with
      | none => simp at hx
      | some z => rw [hx] at hl; simpa using hl)
    refine ⟨runSection false false r ++ fs, s, ?_, ?_, ?_⟩
    · simp only [runSections]; rw [i1, List.append_assoc]
    · intro f hf
      rcases List.mem_append.1 hf with hf | hf
      · exact g1 f hf
      · exact i2 f hf
    · rw [tdSum_append, g2, coveredTime_append msp a b r idx ha hb, ← i3]; omega

theorem periodSections_uptime (msp : Int) (idx : List Int) (runs : List (List Int)) (h : MaximalRuns msp idx runs) (last : Int)
    (hl : idx.getLast? = some last) (goesOn : Bool) (hi : Int) :
    uptime (periodSections goesOn hi runs) = .ok (coveredTime msp idx + if goesOn then hi - last else 0) := by
  cases goesOn with
  | false =>
    obtain ⟨h1, h2⟩ := runSections_covered msp idx runs h
    unfold periodSections
    simp only
    rcases List.eq_nil_or_concat (runSections false false runs) with hx | ⟨fs, f, hx⟩
    · rw [hx] at h2 ⊢
      simp only [tdSum, List.map_nil, List.sum_nil] at h2
      rw [← h2]; rfl
    · rw [hx] at h1 h2 ⊢
      simp only [List.concat_eq_append, List.getLast?_append, List.getLast?_singleton, Option.some_or, List.dropLast_concat,
        Bool.false_eq_true, if_false] at h1 h2 ⊢
      have htd : ({ f with includeEnd := true } : TF).timedelta = f.timedelta := rfl
      rw [uptime_eq]
      · rw [tdSum_append] at h2 ⊢
        rw [← h2]
        simp [tdSum, htd]
      · intro g hg
        rcases List.mem_append.1 hg with hg | hg
        · exact h1 g (List.mem_append_left _ hg)
        · rw [List.mem_singleton] at hg
          subst hg
          rw [htd]
          exact h1 f (by simp)
  | true =>
    obtain ⟨fs, s, h1, h2, h3⟩ := runSections_open msp idx runs h last hl
    unfold periodSections
    simp only [h1, List.getLast?_append, List.getLast?_singleton, Option.some_or, List.dropLast_concat, if_true]
    have htd : ({ mk' (some s) none with includeEnd := true, rawEnd := some hi } : TF).timedelta = some (hi - s) := rfl
    rw [uptime_eq]
    · rw [tdSum_append, ← h3]
      simp only [tdSum, List.map_singleton, htd, Option.getD_some, List.sum_singleton]
      congr 1
      omega
    · intro g hg
      rcases List.mem_append.1 hg with hg | hg
      · exact h2 g hg
      · rw [List.mem_singleton] at hg
        subst hg
        rw [htd]; simp

/-! ### One section, nothing cached -/

theorem processChunks_rowsOK {α : Type} (msp : Int) (cs : List (Chunk (Option α))) (lo hi : Int)
    (ht : Tiles lo hi (cs.map Chunk.timeframe)) (st st' : GSState) (hok : RowsOK st.rows)
    (h : processChunks msp st cs = .ok st') : RowsOK st'.rows := by
  induction cs generalizing st lo with
  | nil => simp only [processChunks, Except.ok.injEq] at h; subst h; exact hok
  | cons c cs ih =>
    cases ht with
    | cons _ mid _ _ _ htf hlm hts =>
      rw [processChunks] at h
      cases hc : processChunk msp st c with
      | error e => rw [hc] at h; cases h
      | ok st1 =>
        rw [hc] at h
        refine ih mid hts st1 ?_ h
        unfold processChunk at hc
        cases hg : getGoodSections msp c.rows c.look st.flag with
        | error e => rw [hg] at hc; cases hc
        | ok l =>
          rw [hg] at hc
          cases l with
          | nil => simp only [Except.ok.injEq] at hc; subst hc; exact hok
          | cons f fs =>
            simp only at hc
            obtain ⟨k1, k2⟩ := C28_append st.rows hok c.timeframe lo mid htf.2.2.1 htf.2.2.2 htf.1 hlm (f :: fs)
            by_cases hd : ∀ r ∈ st.rows, r.stop ≤ lo ∨ mid ≤ r.start
            · obtain ⟨rows', e1, e2, _⟩ := k1 hd
              rw [e1] at hc
              simp only [Except.ok.injEq] at hc
              subst hc
              exact e2
            · rw [k2 hd] at hc; cases hc

theorem update_nil {α : Type} (rows : List (RRow α)) (h : RowsOK rows) : Results.update [] rows = (rows, none) := by
  have hc := C29_update_comm rows [] h ⟨by simp, by simp⟩ (by rw [C29_update_empty])
  rw [C29_update_empty] at hc
  exact Prod.ext hc.2 hc.1

theorem gsCall_one {α : Type} (msp : Int) (sec : TF) (he : sec.empty = false) (load : List TF → Gen (Chunk (Option α)))
    (lo hi : Int) (ht : Tiles lo hi ((load [sec]).out.map Chunk.timeframe)) :
    (gsCall msp [] ⟨[sec], false, gsCompute msp load⟩).2 = goodSections msp (load [sec]) := by
  have hplan : planGS msp [] ([sec].filter (fun s => !s.empty)) false = .ok ([], [sec]) := by
    have h1 : [sec].filter (fun s => !s.empty) = [sec] := by
      rw [List.filter_cons_of_pos (by simp [he]), List.filter_nil]
    rw [h1]
    rfl
  unfold gsCall
  simp only [hplan]
  unfold gsCompute goodSections
  cases hp : processChunks msp ⟨false, []⟩ (load [sec]).out with
  | error e => rfl
  | ok st =>
    cases hee : (load [sec]).err with
    | some e => simp only [hee]
    | none =>
      simp only [hee]
      rw [update_nil st.rows (processChunks_rowsOK msp _ lo hi ht _ st ⟨by simp, by simp⟩ hp)]
      rfl

theorem section_few_any {α : Type} (rows : List (Row α)) (hinc : Increasing rows) (window sec : TF) (nLook cs : Int)
    (hcs : 0 < cs)
    (p : Int → Bool) (hp : ∀ t, p t = true ↔ Mem t (window.intersection sec)) (he : (window.intersection sec).empty = false)
    (hb : ¬ ((window.intersection sec).start = none ∧ (window.intersection sec).stop = none)) (h2 : (rows.filter (fun r => p r.1)).length < 2) :
    (loadSection (some rows) window nLook cs sec).1 = ⟨[], none⟩ ∨
    (loadSection (some rows) window nLook cs sec).1 = ⟨[⟨[], window.intersection sec, none⟩], none⟩ := by
  unfold loadSection
  simp only [he, Bool.false_eq_true, if_false]
  cases hq : (window.intersection sec).queryTerms with
  | error e =>
    exfalso
    simp only [queryTerms, he, Bool.false_eq_true, if_false] at hq
    split at hq <;> cases hq
  | ok o =>
    cases o with
    | none => exact absurd (queryTerms_none hq).2 hb
    | some terms =>
      simp only
      have hfil : rows.filter (fun r => p r.1) = rows.filter (fun r => matchesTerms terms r.1) := by
        apply List.filter_congr
        intro r _
        rw [Bool.eq_iff_iff, hp, matchesTerms_iff hq]
      rw [hfil] at h2
      cases hh : (coordinates terms rows).head? with
      | none => right; rfl
      | some a =>
        cases hl : (coordinates terms rows).getLast? with
        | none => right; rfl
        | some b =>
          left
          obtain ⟨h1, h3, _, _, h5⟩ := select_coordinates terms rows hinc a b hh hl
          rw [← h5, select_length] at h2
          have : a = b := by omega
          subst this
          simp only [loadRange, hcs, dif_pos]
          rw [chunkLoop_done _ _ _ _ _ _ _ _ _ (Nat.le_refl _)]
          rfl

theorem section_few_look {α : Type} (rows : List (Row α)) (hinc : Increasing rows) (window sec : TF) (nLook cs : Int)
    (hcs : 0 < cs)
    (p : Int → Bool) (hp : ∀ t, p t = true ↔ Mem t (window.intersection sec)) (he : (window.intersection sec).empty = false)
    (hb : (window.intersection sec).start ≠ none) (h2 : (rows.filter (fun r => p r.1)).length < 2) :
    (loadSection (some rows) window nLook cs sec).1 = ⟨[], none⟩ ∨
    (loadSection (some rows) window nLook cs sec).1 = ⟨[⟨[], window.intersection sec, none⟩], none⟩ :=
  section_few_any rows hinc window sec nLook cs hcs p hp he (fun h => hb h.1) h2

theorem gsCall_few {α : Type} (msp : Int) (sec : TF) (he : sec.empty = false) (load : List TF → Gen (Chunk (Option α)))
    (tf : TF) (h : load [sec] = ⟨[], none⟩ ∨ load [sec] = ⟨[⟨[], tf, none⟩], none⟩) :
    (gsCall msp [] ⟨[sec], false, gsCompute msp load⟩).2 = .ok [] := by
  have hplan : planGS msp [] ([sec].filter (fun s => !s.empty)) false = .ok ([], [sec]) := by
    have h1 : [sec].filter (fun s => !s.empty) = [sec] := by
      rw [List.filter_cons_of_pos (by simp [he]), List.filter_nil]
    rw [h1]
    rfl
  unfold gsCall
  simp only [hplan]
  unfold gsCompute
  rcases h with h | h <;> rw [h] <;> rfl

theorem gsCall_none {α : Type} (msp : Int) (sec : TF) (he : sec.empty = true) (load : List TF → Gen (Chunk (Option α))) :
    (gsCall msp [] ⟨[sec], false, gsCompute msp load⟩).2 = .ok [] := by
  have hplan : planGS msp [] ([sec].filter (fun s => !s.empty)) false = .ok ([], []) := by
    have h1 : [sec].filter (fun s => !s.empty) = [] := by
      rw [List.filter_cons_of_neg (by simp [he]), List.filter_nil]
    rw [h1]
    rfl
  unfold gsCall
  simp only [hplan]
  rfl

/-! ### The default section of a table -/

theorem table_frame (ac : String) (l : List (Int × Rat)) (hinc : l.Pairwise (fun x y => x.1 < y.1)) (h2 : 2 ≤ l.length) :
    ∃ first last, first < last ∧ (∃ r ∈ l, r.1 = last) ∧ (∀ r ∈ l, first ≤ r.1 ∧ r.1 ≤ last) ∧
      l.head?.map Prod.fst = some first ∧ l.getLast?.map Prod.fst = some last ∧
      ∀ w, tableTimeframe (asTable ac l).rows w = .ok (w.intersection (mk' (some first) (some last))) := by
  obtain ⟨x, mid, y, rfl⟩ : ∃ x mid y, l = x :: (mid ++ [y]) := by
    cases l with
    | nil => simp at h2
    | cons x l =>
      rcases List.eq_nil_or_concat l with rfl | ⟨mid, y, rfl⟩
      · simp at h2
      · exact ⟨x, mid, y, by simp⟩
  have hxy : x.1 < y.1 := (List.pairwise_cons.1 hinc).1 y (by simp)
  refine ⟨x.1, y.1, hxy, ⟨y, by simp, rfl⟩, ?_, rfl, by rw [← List.cons_append, List.getLast?_append]; rfl, ?_⟩
  · intro r hr
    constructor
    · rcases List.mem_cons.1 hr with rfl | hr
      · exact le_refl _
      · exact le_of_lt ((List.pairwise_cons.1 hinc).1 r hr)
    · rw [← List.cons_append] at hr hinc
      rcases List.mem_append.1 hr with hr | hr
      · exact le_of_lt ((List.pairwise_append.1 hinc).2.2 r hr y (by simp))
      · simp only [List.mem_singleton] at hr; subst hr; exact le_refl _
  · intro w
    unfold tableTimeframe
    have hh : (asTable ac (x :: (mid ++ [y]))).rows.head? = some (x.1, some x.2) := rfl
    have hl : (asTable ac (x :: (mid ++ [y]))).rows.getLast? = some (y.1, some y.2) := by
      unfold asTable
      rw [List.getLast?_map, ← List.cons_append, List.getLast?_append]; rfl
    rw [hh, hl]
    simp only [ctor_two _ _ hxy]

theorem few_inside (l : List (Int × Rat)) (hinc : l.Pairwise (fun x y => x.1 < y.1)) (p : Int × Rat → Bool)
    (h : ∀ r ∈ l, ∀ q ∈ l, p r = true → p q = true → r.1 = q.1) : (l.filter p).length < 2 := by
  have hu : ∀ r ∈ l.filter p, ∀ q ∈ l.filter p, r.1 = q.1 := by
    intro r hr q hq
    rw [List.mem_filter] at hr hq
    exact h r hr.1 q hq.1 hr.2 hq.2
  have hpw := hinc.filter p
  generalize l.filter p = k at hu hpw
  match k, hpw with
  | [], _ => simp
  | [_], _ => simp
  | r :: q :: k, hpw =>
    exfalso
    have h3 := hu r (by simp) q (by simp)
    have h4 := (List.pairwise_cons.1 hpw).1 q (by simp)
    omega

theorem table_filter (ac : String) (l : List (Int × Rat)) (p q : Int → Bool) (h : ∀ r ∈ l, p r.1 = q r.1) :
    (asTable ac l).rows.filter (fun r => p r.1) = (l.filter (fun r => q r.1)).map (fun r => (r.1, some r.2)) := by
  unfold asTable
  rw [List.filter_map]
  congr 1
  apply List.filter_congr
  intro r hr
  exact h r hr

theorem table_increasing (ac : String) (l : List (Int × Rat)) (hinc : l.Pairwise (fun x y => x.1 < y.1)) :
    Increasing (asTable ac l).rows := by
  unfold Increasing asTable
  rw [List.pairwise_map]
  exact hinc

theorem periodSections_closed (x y : Int) (runs : List (List Int)) : periodSections false x runs = periodSections false y runs := by
  unfold periodSections
  simp

theorem one_section (msp : Int) (hmsp : 0 ≤ msp) (ac : String) (l : List (Int × Rat))
    (hinc : l.Pairwise (fun x y => x.1 < y.1)) (window sec : TF) (he : sec.empty = false) (cs : Int) (hcs : 0 < cs)
    (hb : (window.intersection sec).start ≠ none)
    (p : Int → Bool) (hp : ∀ t, p t = true ↔ Mem t (window.intersection sec)) (inside : List (Int × Rat))
    (hin : inside = l.filter (fun r => p r.1)) (h2 : 2 ≤ inside.length) (last : Int × Rat)
    (hlast : inside.getLast? = some last) (goesOn : Bool)
    (hgo : goesOn = true ↔ ∃ q ∈ l, last.1 < q.1 ∧ q.1 - last.1 ≤ msp)
    (runs : List (List Int)) (hruns : MaximalRuns msp (inside.map Prod.fst) runs) :
    (gsCall msp [] ⟨[sec], false, gsCompute msp (fun ss => (hdfLoad (some (asTable ac l).rows) window (some ss) 10 cs).1)⟩).2 =
      if goesOn = true ∧ (window.intersection sec).stop = some last.1 ∧ runs.getLast? = some [last.1] then .error .valueError
      else .ok (periodSections goesOn ((window.intersection sec).stop.getD last.1) runs) := by
  have hfil := table_filter ac l p p (fun _ _ => rfl)
  rw [← hin] at hfil
  have hi := table_increasing ac l hinc
  have h2' : 2 ≤ ((asTable ac l).rows.filter (fun r => p r.1)).length := by rw [hfil, List.length_map]; exact h2
  have herr : (loadSection (some (asTable ac l).rows) window 10 cs sec).1.err = none := by
    rw [C14_load_error_iff _ hi _ _ 10 cs hcs p hp h2', if_neg (fun h => hb h.1)]
  have hone := loadSections_one (some (asTable ac l).rows) window 10 cs sec herr
  obtain ⟨_, _, hspec, _⟩ := loadSection_spec _ hi window sec 10 cs hcs p hp h2'
  have htiles := hspec.tiles
  rw [if_pos rfl] at htiles
  rw [gsCall_one msp sec he _ _ _ (by rw [hone]; exact htiles), hone]
  have hlast' : ((asTable ac l).rows.filter (fun r => p r.1)).getLast? = some (last.1, some last.2) := by
    rw [hfil, List.getLast?_map, hlast]; rfl
  have hgo' : goesOn = true ↔ ∃ q ∈ (asTable ac l).rows, last.1 < q.1 ∧ q.1 - last.1 ≤ msp := by
    rw [hgo]
    constructor
    · rintro ⟨q, hq, h⟩
      exact ⟨(q.1, some q.2), List.mem_map.2 ⟨q, hq, rfl⟩, h⟩
    · rintro ⟨q, hq, h⟩
      obtain ⟨q', hq', rfl⟩ := List.mem_map.1 hq
      exact ⟨q', hq', h⟩
  exact C23_window_end_partial msp hmsp (asTable ac l).rows hi (by
      intro r hr
      obtain ⟨q, _, rfl⟩ := List.mem_map.1 hr
      rfl) window sec 10 cs (by decide) hcs p hp h2' herr (last.1, some last.2) hlast' goesOn hgo' runs (by
      rw [hfil, List.map_map]; exact hruns)

/-! ### Theorems -/

/-- C113. The good sections in one given section, of which at least two readings are within the window: one per run, cut at the end
of the section or of the window if the next reading is near enough. The reading at the end of a half-open section does not count. -/
theorem C113_given_section_partial (msp : Int) (hmsp : 0 ≤ msp) (ac : String) (l : List (Int × Rat))
    (hinc : l.Pairwise (fun x y => x.1 < y.1)) (a b : Option Int) (s e : Int) (hse : s < e) (cs : Int) (hcs : 0 < cs)
    (inside : List (Int × Rat))
    (hin : inside = l.filter (fun r => decide (s ≤ r.1) && decide (r.1 < e) && a.all (fun x => decide (x ≤ r.1)) &&
      b.all (fun y => decide (r.1 < y)))) (h2 : 2 ≤ inside.length) (last : Int × Rat)
    (hlast : inside.getLast? = some last) (goesOn : Bool)
    (hgo : goesOn = true ↔ ∃ q ∈ l, last.1 < q.1 ∧ q.1 - last.1 ≤ msp)
    (runs : List (List Int)) (hruns : MaximalRuns msp (inside.map Prod.fst) runs) :
    meterGoodSections (some (asTable ac l)) msp (mk' a b) (some [mk' (some s) (some e)]) cs =
      .ok (periodSections goesOn ((b.map (min e)).getD e) runs) := by
  have hml := hin ▸ List.mem_of_getLast? hlast
  have hle := (List.mem_filter.1 hml).2
  simp only [Bool.and_eq_true, decide_eq_true_eq] at hle
  have hne : ¬ (a.map (max · s)).getD s ≥ (b.map (min · e)).getD e := by
    obtain ⟨⟨⟨g1, g2⟩, g3⟩, g4⟩ := hle
    rcases a with _ | a <;> rcases b with _ | b <;> simp at g3 g4 ⊢ <;> omega
  have hw := window_and_table a b s e
  rw [if_neg hne] at hw
  have hi : interInclude (mk' a b) (mk' (some s) (some e)) = false := by
    unfold interInclude
    rw [show (mk' a b).includeEnd = false from rfl, show (mk' (some s) (some e)).includeEnd = false from rfl]
    simp
  rw [hi] at hw
  set p : Int → Bool := fun t => decide (s ≤ t) && decide (t < e) && a.all (fun x => decide (x ≤ t)) &&
      b.all (fun y => decide (t < y)) with hpdef
  have hp : ∀ t, p t = true ↔ Mem t ((mk' a b).intersection (mk' (some s) (some e))) := by
    intro t
    rw [hw]
    simp only [Mem, built, TF.start, TF.stop, hpdef]
    rcases a with _ | a <;> rcases b with _ | b <;> simp [-not_le] <;> omega
  unfold meterGoodSections
  simp only [askedSections]
  have hstop : ((mk' a b).intersection (mk' (some s) (some e))).stop = some ((b.map (min · e)).getD e) := by rw [hw]; rfl
  rw [one_section msp hmsp ac l hinc (mk' a b) _ rfl cs hcs (by rw [hw]; simp [built, TF.start]) p hp inside hin h2 last hlast
    goesOn hgo runs hruns, if_neg, hstop]
  · congr 2
    cases b with
    | none => rfl
    | some b => simp [min_comm]
  · rintro ⟨_, h, _⟩
    rw [hstop] at h
    injection h with h
    obtain ⟨⟨⟨g1, g2⟩, g3⟩, g4⟩ := hle
    rcases b with _ | b <;> simp at h g4 <;> omega

/-- C113. The good sections of a meter: one per run of at least two readings within the window, no two of which are further apart
than `max_sample_period`, from its first to its last reading, whatever the chunk size. If the next reading after the window is
near enough, the last section ends with the window; it is a `ValueError` if nothing would be left of that section. -/
theorem C113_sections_partial (msp : Int) (hmsp : 0 ≤ msp) (ac : String) (l : List (Int × Rat))
    (hinc : l.Pairwise (fun x y => x.1 < y.1)) (a b : Option Int) (cs : Int) (hcs : 0 < cs) (inside : List (Int × Rat))
    (hin : inside = l.filter (fun r => between a b r.1)) (h2 : 2 ≤ inside.length) (last : Int × Rat)
    (hlast : inside.getLast? = some last) (goesOn : Bool)
    (hgo : goesOn = true ↔ ∃ q ∈ l, last.1 < q.1 ∧ q.1 - last.1 ≤ msp)
    (runs : List (List Int)) (hruns : MaximalRuns msp (inside.map Prod.fst) runs) :
    meterGoodSections (some (asTable ac l)) msp (mk' a b) none cs =
      if goesOn = true ∧ b = some last.1 ∧ runs.getLast? = some [last.1] then .error .valueError
      else .ok (periodSections goesOn (b.getD last.1) runs) := by
  obtain ⟨first, fin, hff, ⟨rf, hrf, hrf'⟩, hbd, _, _, htf⟩ := table_frame ac l hinc (by
    have := List.length_filter_le (fun r : Int × Rat => between a b r.1) l
    rw [← hin] at this; omega)
  unfold meterGoodSections
  simp only [askedSections, htf]
  rcases Bool.eq_false_or_eq_true ((mk' a b).intersection (mk' (some first) (some fin))).empty with he | he
  · exfalso
    have := few_inside l hinc (fun r => between a b r.1) (by
      intro r hr q hq h3 h4
      exact default_section_empty a b first fin he _ _ (hbd r hr).1 (hbd r hr).2 h3 (hbd q hq).1 (hbd q hq).2 h4)
    rw [← hin] at this
    omega
  obtain ⟨s, e, hse, heq, hmem⟩ := default_section a b first fin he
  set sec : TF := { (mk' a b).intersection (mk' (some first) (some fin)) with includeEnd := true } with hsec
  set p : Int → Bool := fun t => decide (first ≤ t) && decide (t ≤ fin) && between a b t with hpdef
  have hp : ∀ t, p t = true ↔ Mem t ((mk' a b).intersection sec) := by
    intro t
    rw [heq, hmem]
    simp [hpdef, and_assoc]
  rw [one_section msp hmsp ac l hinc (mk' a b) sec he cs hcs (by rw [heq]; simp [built, TF.start]) p hp inside (by
    rw [hin]
    apply List.filter_congr
    intro r hr
    obtain ⟨g1, g2⟩ := hbd r hr
    simp [hpdef, g1, g2]) h2 last hlast goesOn hgo runs hruns]
  have hstop : ((mk' a b).intersection sec).stop = some e := by rw [heq]; rfl
  cases goesOn with
  | false =>
    rw [if_neg (by simp), if_neg (by simp), periodSections_closed]
  | true =>
    obtain ⟨q, hq, hlq, _⟩ := hgo.1 rfl
    have hml : last ∈ l ∧ between a b last.1 = true := by
      have := List.mem_of_getLast? hlast
      rw [hin, List.mem_filter] at this
      exact this
    have hnq : between a b q.1 = false := by
      rw [← Bool.not_eq_true]
      intro h
      have hqf : q ∈ inside := by rw [hin]; exact List.mem_filter.2 ⟨hq, h⟩
      obtain ⟨A, hA⟩ := List.getLast?_eq_some_iff.1 hlast
      have hs' : inside.Pairwise (fun x y => x.1 < y.1) := by rw [hin]; exact hinc.filter _
      rw [hA] at hs' hqf
      rcases List.mem_append.1 hqf with hm | hm
      · have := (List.pairwise_append.1 hs').2.2 q hm last (by simp); omega
      · rw [List.mem_singleton] at hm; subst hm; omega
    have hbe : b = some e := by
      cases b with
      | none =>
        exfalso
        rcases a with _ | a
        · simp [between] at hnq
        · have h1 := hml.2
          simp [between] at hnq h1
          omega
      | some y =>
        congr 1
        have h1 : last.1 ≤ y := by
          have := hml.2
          simp [between] at this
          exact this.2
        have h3 : y < q.1 := by
          rcases a with _ | a
          · simpa [between] using hnq
          · have h1 := hml.2
            simp [between] at hnq h1
            apply hnq; omega
        have h4 := hbd q hq
        have h5 := hbd last hml.1
        have h6 : Mem y (built (some s) (some e) false true) := (hmem y).2 ⟨by omega, by omega, by
          rcases a with _ | a
          · simp [between]
          · have h1 := hml.2
            simp [between] at h1 ⊢
            omega⟩
        have h7 : Mem e (built (some s) (some e) false true) := by
          refine ⟨rfl, ?_, ?_⟩
          · intro x hx
            have : some s = some x := hx
            injection this with this; omega
          · intro x hx
            right
            have : some e = some x := hx
            injection this with this
            exact ⟨rfl, this⟩
        have h8 := ((hmem e).1 h7).2.2
        have h9 := h6.2.2 e rfl
        have h10 : e ≤ y := by
          simp [between] at h8
          exact h8.2
        rcases h9 with h9 | h9
        · omega
        · exact h9.2
    rw [hstop, hbe]

/-- C113. With fewer than two readings in the window there are no good sections. -/
theorem C113_few_readings (msp : Int) (ac : String) (l : List (Int × Rat))
    (hinc : l.Pairwise (fun x y => x.1 < y.1)) (h2 : 2 ≤ l.length) (a b : Option Int) (cs : Int) (hcs : 0 < cs)
    (hin : (l.filter (fun r => between a b r.1)).length < 2) :
    meterGoodSections (some (asTable ac l)) msp (mk' a b) none cs = .ok [] := by
  obtain ⟨first, fin, hff, ⟨rf, hrf, hrf'⟩, hbd, _, _, htf⟩ := table_frame ac l hinc h2
  unfold meterGoodSections
  simp only [askedSections, htf]
  rcases Bool.eq_false_or_eq_true ((mk' a b).intersection (mk' (some first) (some fin))).empty with he | he
  · exact gsCall_none msp { (mk' a b).intersection (mk' (some first) (some fin)) with includeEnd := true } he _
  obtain ⟨s, e, hse, heq, hmem⟩ := default_section a b first fin he
  set sec : TF := { (mk' a b).intersection (mk' (some first) (some fin)) with includeEnd := true } with hsec
  set p : Int → Bool := fun t => decide (first ≤ t) && decide (t ≤ fin) && between a b t with hpdef
  have hp : ∀ t, p t = true ↔ Mem t ((mk' a b).intersection sec) := by
    intro t
    rw [heq, hmem]
    simp [hpdef, and_assoc]
  have hfil := table_filter ac l p (between a b) (by
    intro r hr
    obtain ⟨g1, g2⟩ := hbd r hr
    simp [hpdef, g1, g2])
  have hload := section_few_look _ (table_increasing ac l hinc) (mk' a b) sec 10 cs hcs p hp (by rw [heq]; rfl)
    (by rw [heq]; simp [built, TF.start]) (by rw [hfil, List.length_map]; exact hin)
  have herr : (loadSection (some (asTable ac l).rows) (mk' a b) 10 cs sec).1.err = none := by
    rcases hload with h | h <;> rw [h]
  have hone := loadSections_one (some (asTable ac l).rows) (mk' a b) 10 cs sec herr
  apply gsCall_few msp sec he _ ((mk' a b).intersection sec)
  rw [hone]
  exact hload

/-! ### The uptime -/

theorem coveredWithin_cons (msp : Int) (a b : Option Int) (x y : Int) (l : List Int) :
    coveredWithin msp a b (x :: y :: l) =
      (if between a b x = true ∧ y - x ≤ msp then (b.map (min y)).getD y - x else 0) + coveredWithin msp a b (y :: l) := by
  simp [coveredWithin]

theorem coveredWithin_after (msp : Int) (a b : Option Int) (l : List Int) (h : ∀ t ∈ l, between a b t = false) :
    coveredWithin msp a b l = 0 := by
  induction l with
  | nil => rfl
  | cons x l ih =>
    cases l with
    | nil => rfl
    | cons y l =>
      rw [coveredWithin_cons, if_neg (by rw [h x (by simp)]; simp), ih (fun t ht => h t (List.mem_cons_of_mem _ ht))]
      rfl

/-- With a reading in the window, the covered time is that of the readings inside and what follows the last of them. -/
theorem coveredWithin_inside (msp : Int) (hmsp : 0 ≤ msp) (a b : Option Int) (l : List Int) (hs : l.Pairwise (· < ·)) (last : Int)
    (hlast : (l.filter (between a b)).getLast? = some last) (goesOn : Bool)
    (hgo : goesOn = true ↔ ∃ q ∈ l, last < q ∧ q - last ≤ msp) :
    coveredWithin msp a b l = coveredTime msp (l.filter (between a b)) + if goesOn then b.getD last - last else 0 := by
  induction l with
  | nil => simp at hlast
  | cons x l ih =>
    have hx := (List.pairwise_cons.1 hs).1
    have hs' := (List.pairwise_cons.1 hs).2
    have hstep : ∀ last', (l.filter (between a b)).getLast? = some last' → last' ∈ l := by
      intro last' h
      exact (List.mem_filter.1 (List.mem_of_getLast? h)).1
    rcases Bool.eq_false_or_eq_true (between a b x) with hbx | hbx
    · rw [List.filter_cons_of_pos hbx] at hlast ⊢
      cases l with
      | nil =>
        simp only [List.filter_nil, List.getLast?_singleton, Option.some.injEq] at hlast
        subst hlast
        have : goesOn = false := by
          rw [← Bool.not_eq_true, hgo]
          rintro ⟨q, hq, h1, _⟩
          simp at hq; omega
        subst this
        rfl
      | cons y l =>
        rw [coveredWithin_cons]
        rcases Bool.eq_false_or_eq_true (between a b y) with hby | hby
        · have hlast' : ((y :: l).filter (between a b)).getLast? = some last := by
            rw [List.filter_cons_of_pos hby] at hlast ⊢
            rw [List.getLast?_cons_cons] at hlast
            exact hlast
          rw [ih hs' hlast' (by
            rw [hgo]
            constructor
            · rintro ⟨q, hq, h1, h2⟩
              rcases List.mem_cons.1 hq with rfl | hq
              · have := hx last (hstep last hlast'); omega
              · exact ⟨q, hq, h1, h2⟩
            · rintro ⟨q, hq, h⟩
              exact ⟨q, List.mem_cons_of_mem _ hq, h⟩)]
          rw [List.filter_cons_of_pos hby, coveredTime_cons]
          have hcut : (b.map (min y)).getD y = y := by
            cases b with
            | none => rfl
            | some z =>
              simp [between] at hby
              simp [hby.2]
          rw [hcut]
          simp only [hbx, true_and]
          omega
        · have hall : ∀ t ∈ y :: l, between a b t = false := by
            intro t ht
            have hyt : y ≤ t := by
              rcases List.mem_cons.1 ht with rfl | ht
              · exact le_refl _
              · exact le_of_lt ((List.pairwise_cons.1 hs').1 t ht)
            have hxy := hx y (by simp)
            rcases a with _ | a <;> rcases b with _ | b <;> simp [between] at hbx hby ⊢ <;> omega
          rw [coveredWithin_after msp a b _ hall]
          have hnil : (y :: l).filter (between a b) = [] := by
            rw [List.filter_eq_nil_iff]
            intro t ht
            rw [hall t ht]; simp
          rw [hnil] at hlast ⊢
          simp only [List.getLast?_singleton, Option.some.injEq] at hlast
          subst hlast
          have hxy := hx y (by simp)
          have hc0 : coveredTime msp [x] = 0 := rfl
          rw [hc0]
          obtain ⟨z, rfl⟩ : ∃ z, b = some z := by
            cases b with
            | some z => exact ⟨z, rfl⟩
            | none =>
              exfalso
              rcases a with _ | a <;> simp [between] at hbx hby <;> omega
          have hzy : z < y := by
            rcases a with _ | a <;> simp [between] at hbx hby <;> omega
          by_cases hn : y - x ≤ msp
          · have : goesOn = true := hgo.2 ⟨y, by simp, hxy, hn⟩
            subst this
            rw [if_pos ⟨hbx, hn⟩, if_pos rfl]
            simp only [Option.map_some, Option.getD_some]
            rw [min_eq_right (by omega)]
            omega
          · have : goesOn = false := by
              rw [← Bool.not_eq_true, hgo]
              rintro ⟨q, hq, h1, h2⟩
              rcases List.mem_cons.1 hq with rfl | hq
              · omega
              · have : y ≤ q := by
                  rcases List.mem_cons.1 hq with rfl | hq
                  · exact le_refl _
                  · exact le_of_lt ((List.pairwise_cons.1 hs').1 q hq)
                omega
            subst this
            rw [if_neg (fun h => hn h.2)]
            rfl
    · rw [List.filter_cons_of_neg (by rw [hbx]; simp)] at hlast ⊢
      rw [← ih hs' hlast (by
        rw [hgo]
        constructor
        · rintro ⟨q, hq, h1, h2⟩
          rcases List.mem_cons.1 hq with rfl | hq
          · have := hx last (hstep last hlast); omega
          · exact ⟨q, hq, h1, h2⟩
        · rintro ⟨q, hq, h⟩
          exact ⟨q, List.mem_cons_of_mem _ hq, h⟩)]
      cases l with
      | nil => rfl
      | cons y l => rw [coveredWithin_cons, if_neg (by rw [hbx]; simp)]; omega

theorem gapFree_before (msp : Int) (x y last : Int) (l : List Int) (h : GapFree msp (x :: y :: l))
    (hs : (x :: y :: l).Pairwise (· < ·)) (hl : (x :: y :: l).getLast? = some last) :
    ∃ z ∈ x :: y :: l, z < last ∧ last - z ≤ msp := by
  induction l generalizing x y with
  | nil =>
    simp only [List.getLast?_cons_cons, List.getLast?_singleton, Option.some.injEq] at hl
    subst hl
    exact ⟨x, by simp, (List.pairwise_cons.1 hs).1 y (by simp), h.1⟩
  | cons w l ih =>
    rw [List.getLast?_cons_cons] at hl
    obtain ⟨z, hz, h1⟩ := ih y w h.2 (List.pairwise_cons.1 hs).2 hl
    exact ⟨z, List.mem_cons_of_mem _ hz, h1⟩

theorem runs_last_lone (msp : Int) (idx : List Int) (runs : List (List Int)) (h : MaximalRuns msp idx runs) (last : Int)
    (hl : idx.getLast? = some last) (hs : idx.Pairwise (· < ·)) :
    runs.getLast? = some [last] ↔ ∀ x ∈ idx, x < last → msp < last - x := by
  induction h with
  | nil => simp at hl
  | single r hne hg =>
    match r, hne with
    | [x], _ => simp at hl; subst hl; simp
    | x :: y :: l, _ =>
      simp only [List.getLast?_singleton, Option.some.injEq, List.cons.injEq, reduceCtorEq, and_false, false_iff]
      intro hall
      obtain ⟨z, hz, h1, h2⟩ := gapFree_before msp x y last l hg hs hl
      have := hall z hz h1
      omega
  | cons r a b idx runs hg ha hb hr ih =>
    obtain ⟨q, qs, rfl⟩ : ∃ q qs, runs = q :: qs := by
      cases runs with
      | nil => exact absurd (maximalRuns_nil hr) (by simp)
      | cons q qs => exact ⟨q, qs, rfl⟩
    have hl' : (b :: idx).getLast? = some last := by
      rw [List.getLast?_append] at hl
      cases hx : (b :: idx).getLast? with
      | none => simp at hx
      | some z => rw [hx] at hl; simpa using hl
    obtain ⟨p1, p2, p3⟩ := List.pairwise_append.1 hs
    rw [List.getLast?_cons_cons, ih hl' p2]
    constructor
    · intro hall x hx hlt
      rcases List.mem_append.1 hx with hx | hx
      · have hxa : x ≤ a := by
          obtain ⟨A, rfl⟩ := List.getLast?_eq_some_iff.1 ha
          rcases List.mem_append.1 hx with hx | hx
          · exact le_of_lt ((List.pairwise_append.1 p1).2.2 x hx a (by simp))
          · simp only [List.mem_singleton] at hx; omega
        have hbl : b ≤ last := by
          rcases List.mem_cons.1 (List.mem_of_getLast? hl') with h | h
          · omega
          · exact le_of_lt ((List.pairwise_cons.1 p2).1 last h)
        omega
      · exact hall x hx hlt
    · intro hall x hx hlt
      exact hall x (List.mem_append_right _ hx) hlt

/-- The window ends at a reading that is followed by another one within `msp`, but preceded by none. -/
def EndsAtLone (msp : Int) (a b : Option Int) (l : List Int) : Prop :=
  ∃ r ∈ l, b = some r ∧ (∃ q ∈ l, r < q ∧ q - r ≤ msp) ∧ ∀ x ∈ l, between a b x = true → x < r → msp < r - x

/-- C113. The uptime of a meter is the time between successive readings that are not further apart than `max_sample_period`,
from the first reading in the window to the end of the window, whatever the chunk size. With fewer than two readings in the window
it is zero. It is a `ValueError` if the window ends at a reading after a long gap which is followed by a short one. -/
theorem C113_uptime (msp : Int) (hmsp : 0 ≤ msp) (ac : String) (l : List (Int × Rat))
    (hinc : l.Pairwise (fun x y => x.1 < y.1)) (h2 : 2 ≤ l.length) (a b : Option Int) (cs : Int) (hcs : 0 < cs) :
    ((l.filter (fun r => between a b r.1)).length < 2 → meterUptime (some (asTable ac l)) msp (mk' a b) none cs = .ok 0) ∧
    (2 ≤ (l.filter (fun r => between a b r.1)).length →
      (EndsAtLone msp a b (l.map Prod.fst) →
        meterUptime (some (asTable ac l)) msp (mk' a b) none cs = .error .valueError) ∧
      (¬ EndsAtLone msp a b (l.map Prod.fst) →
        meterUptime (some (asTable ac l)) msp (mk' a b) none cs = .ok (coveredWithin msp a b (l.map Prod.fst)))) := by
  unfold meterUptime
  refine ⟨fun hfew => by rw [C113_few_readings msp ac l hinc h2 a b cs hcs hfew]; rfl, ?_⟩
  intro hmany
  set inside := l.filter (fun r => between a b r.1) with hin
  obtain ⟨last, hlast⟩ : ∃ r, inside.getLast? = some r := by
    cases hx : inside.getLast? with
    | none => rw [List.getLast?_eq_none_iff] at hx; rw [hx] at hmany; simp at hmany
    | some r => exact ⟨r, rfl⟩
  obtain ⟨runs, hruns⟩ := maximalRuns_exist msp (inside.map Prod.fst)
  classical
  have hgo : decide (∃ q ∈ l, last.1 < q.1 ∧ q.1 - last.1 ≤ msp) = true ↔ ∃ q ∈ l, last.1 < q.1 ∧ q.1 - last.1 ≤ msp := by simp
  have hlast' : (inside.map Prod.fst).getLast? = some last.1 := by rw [List.getLast?_map, hlast]; rfl
  have hml : last ∈ l ∧ between a b last.1 = true := by
    have := List.mem_of_getLast? hlast
    rw [hin, List.mem_filter] at this
    exact this
  have hsi : inside.Pairwise (fun x y => x.1 < y.1) := hinc.filter _
  have hlone : EndsAtLone msp a b (l.map Prod.fst) ↔
      (decide (∃ q ∈ l, last.1 < q.1 ∧ q.1 - last.1 ≤ msp) = true ∧ b = some last.1 ∧ runs.getLast? = some [last.1]) := by
    rw [runs_last_lone msp _ runs hruns last.1 hlast' (by rw [List.pairwise_map]; exact hsi), hgo]
    constructor
    · rintro ⟨r, hr, rfl, ⟨q, hq, hq'⟩, hall⟩
      obtain ⟨r', hr', rfl⟩ := List.mem_map.1 hr
      obtain ⟨q', hq', rfl⟩ := List.mem_map.1 hq
      have hla : last.1 ≤ r'.1 := by
        have := hml.2
        simp [between] at this
        exact this.2
      have hrin : r' ∈ inside := by
        rw [hin]
        refine List.mem_filter.2 ⟨hr', ?_⟩
        have := hml.2
        rcases a with _ | a <;> simp [between] at this ⊢
        omega
      have hrl : r'.1 ≤ last.1 := by
        obtain ⟨A, hA⟩ := List.getLast?_eq_some_iff.1 hlast
        rw [hA] at hrin hsi
        rcases List.mem_append.1 hrin with hm | hm
        · exact le_of_lt ((List.pairwise_append.1 hsi).2.2 r' hm last (by simp))
        · rw [List.mem_singleton] at hm; subst hm; exact le_refl _
      have heq : r'.1 = last.1 := by omega
      rw [heq] at hq' hall ⊢
      refine ⟨⟨q', by assumption, by assumption⟩, rfl, ?_⟩
      intro x hx hlt
      obtain ⟨x', hx', rfl⟩ := List.mem_map.1 hx
      rw [hin, List.mem_filter] at hx'
      have := hx'.2
      exact hall x'.1 (List.mem_map_of_mem hx'.1) (by rw [heq] at this; exact this) hlt
    · rintro ⟨⟨q, hq, hq'⟩, rfl, hall⟩
      refine ⟨last.1, List.mem_map_of_mem hml.1, rfl, ⟨q.1, List.mem_map_of_mem hq, hq'⟩, ?_⟩
      intro x hx hbx hlt
      obtain ⟨x', hx', rfl⟩ := List.mem_map.1 hx
      exact hall x'.1 (List.mem_map_of_mem (by rw [hin]; exact List.mem_filter.2 ⟨hx', hbx⟩)) hlt
  rw [C113_sections_partial msp hmsp ac l hinc a b cs hcs inside hin (by omega) last hlast _ hgo runs hruns]
  refine ⟨fun h => by rw [if_pos (hlone.1 h)], fun h => ?_⟩
  rw [if_neg (fun h' => h (hlone.2 h'))]
  simp only
  rw [periodSections_uptime msp _ runs hruns last.1 hlast']
  have hmap : (l.map Prod.fst).filter (between a b) = inside.map Prod.fst := by
    rw [List.filter_map]; rfl
  rw [coveredWithin_inside msp hmsp a b (l.map Prod.fst) (by rw [List.pairwise_map]; exact hinc) last.1 (by
    rw [hmap]; exact hlast') (decide (∃ q ∈ l, last.1 < q.1 ∧ q.1 - last.1 ≤ msp)) (by
      rw [hgo]
      constructor
      · rintro ⟨q, hq, h⟩; exact ⟨q.1, List.mem_map_of_mem hq, h⟩
      · rintro ⟨q, hq, h⟩
        obtain ⟨q', hq', rfl⟩ := List.mem_map.1 hq
        exact ⟨q', hq', h⟩), hmap]

theorem coveredWithin_all (msp : Int) (l : List Int) : coveredWithin msp none none l = coveredTime msp l := by
  unfold coveredWithin coveredTime
  simp [between]

/-- C113. Without a window: the time between successive readings that are not further apart than `max_sample_period`. -/
theorem C113_whole_partial (msp : Int) (hmsp : 0 ≤ msp) (ac : String) (l : List (Int × Rat))
    (hinc : l.Pairwise (fun x y => x.1 < y.1)) (h2 : 2 ≤ l.length) (cs : Int) (hcs : 0 < cs) :
    meterUptime (some (asTable ac l)) msp TF.blank none cs = .ok (coveredTime msp (l.map Prod.fst)) := by
  have hf : l.filter (fun r => between none none r.1) = l := List.filter_eq_self.2 (fun _ _ => rfl)
  have := ((C113_uptime msp hmsp ac l hinc h2 none none cs hcs).2 (by rw [hf]; exact h2)).2 (by
    rintro ⟨r, _, h, _⟩; cases h)
  rw [coveredWithin_all] at this
  exact this

theorem coveredTime_scale (msp : Int) (l : List Int) :
    coveredTime (msp * 1000000000) (l.map (· * 1000000000)) = coveredTime msp l * 1000000000 := by
  induction l with
  | nil => rfl
  | cons x l ih =>
    cases l with
    | nil => rfl
    | cons y l =>
      simp only [List.map_cons] at ih ⊢
      rw [coveredTime_cons, coveredTime_cons, ih]
      by_cases h : y - x ≤ msp
      · rw [if_pos h, if_pos (by omega)]; omega
      · rw [if_neg h, if_neg (by omega)]; omega

/-- C113. From the files to the uptime: after converting REDD, the uptime of a meter is the time between successive readings in
the file of its channel that are not further apart than `max_sample_period` (in seconds), whatever the order of the lines and
the chunk size. -/
theorem C113_redd_partial {sort : List (Int × Option Rat) → List (Int × Option Rat)} (hs : SortsByTime sort)
    {tree : RawTree (Option Rat)} (hx : ExpectedTree tree) (house chan : Nat) (hh : house ≤ 9) (hc : chan ≤ 99)
    (file order : List (Int × Rat)) (hf : ChannelFile tree house chan (asFile file)) (hp : order.Perm file)
    (hord : order.Pairwise (fun x y => x.1 < y.1)) (h2 : 2 ≤ file.length) (msp : Int) (hmsp : 0 ≤ msp) (cs : Int) (hcs : 0 < cs) :
    meterUptime ((convertRedd sort (some tree)).1 (meterKey house chan)) (msp * 1000000000) TF.blank none cs =
      .ok (coveredTime msp (order.map Prod.fst) * 1000000000) := by
  rw [redd_table hs hx house chan hh hc file order hf hp hord]
  rw [C113_whole_partial (msp * 1000000000) (by omega) _ _ (by
    rw [List.pairwise_map]
    exact hord.imp (fun h => by simp only; omega)) (by rw [List.length_map, hp.length_eq]; exact h2) cs hcs,
    ← coveredTime_scale, List.map_map, List.map_map]
  rfl

theorem coveredTime_bounds (msp x last : Int) (l : List Int) (hs : (x :: l).Pairwise (· < ·)) (hl : (x :: l).getLast? = some last) :
    0 ≤ coveredTime msp (x :: l) ∧ coveredTime msp (x :: l) ≤ last - x ∧
      (coveredTime msp (x :: l) = last - x ↔ Consecutive (fun s t => t - s ≤ msp) (x :: l)) := by
  induction l generalizing x with
  | nil =>
    simp at hl
    subst hl
    refine ⟨le_refl _, by simp [coveredTime], fun _ => .single _, fun _ => by simp [coveredTime]⟩
  | cons y l ih =>
    have hxy := (List.pairwise_cons.1 hs).1 y (by simp)
    rw [List.getLast?_cons_cons] at hl
    obtain ⟨i1, i2, i3⟩ := ih y (List.pairwise_cons.1 hs).2 hl
    rw [coveredTime_cons]
    by_cases h : y - x ≤ msp
    · rw [if_pos h]
      refine ⟨by omega, by omega, ?_⟩
      constructor
      · intro h3
        exact .cons _ _ _ h (i3.1 (by omega))
      · intro h3
        cases h3 with
        | cons _ _ _ _ h4 => have := i3.2 h4; omega
    · rw [if_neg h]
      refine ⟨by omega, by omega, ?_⟩
      constructor
      · intro h3; omega
      · intro h3
        cases h3 with
        | cons _ _ _ h4 _ => exact absurd h4 h

/-- C113. The proportion of uptime is between zero and one, and one exactly if no two successive readings are further apart than
`max_sample_period`. -/
theorem C113_proportion (msp : Int) (hmsp : 0 ≤ msp) (ac : String) (l : List (Int × Rat))
    (hinc : l.Pairwise (fun x y => x.1 < y.1)) (h2 : 2 ≤ l.length) (cs : Int) (hcs : 0 < cs) :
    ∃ q, proportionUptime (some (asTable ac l)) msp TF.blank cs = .ok (some q) ∧ 0 ≤ q ∧ q ≤ 1 ∧
      (q = 1 ↔ Consecutive (fun s t => t - s ≤ msp) (l.map Prod.fst)) := by
  obtain ⟨first, last, hfl, _, _, hhd, hgl, htf⟩ := table_frame ac l hinc h2
  obtain ⟨rest, hrest⟩ : ∃ rest, l.map Prod.fst = first :: rest := by
    cases l with
    | nil => simp at hhd
    | cons r l =>
      simp only [List.head?_cons, Option.map_some, Option.some.injEq] at hhd
      exact ⟨l.map Prod.fst, by rw [List.map_cons, hhd]⟩
  have hs : (first :: rest).Pairwise (· < ·) := by rw [← hrest, List.pairwise_map]; exact hinc
  have hl : (first :: rest).getLast? = some last := by rw [← hrest, List.getLast?_map]; exact hgl
  obtain ⟨b1, b2, b3⟩ := coveredTime_bounds msp first last rest hs hl
  rw [← hrest] at b1 b2 b3
  have htd : (TF.blank.intersection (mk' (some first) (some last))).timedelta = some (last - first) := by
    have := window_and_table none none first last
    rw [if_neg (by simpa using hfl)] at this
    rw [show TF.blank = mk' none none from rfl, this]
    rfl
  have hpos : (0 : Rat) < ((last - first : Int) : Rat) := by exact_mod_cast (by omega : (0 : Int) < last - first)
  refine ⟨(coveredTime msp (l.map Prod.fst) : Rat) / ((last - first : Int) : Rat), ?_, ?_, ?_, ?_⟩
  · unfold proportionUptime
    simp only [htf, C113_whole_partial msp hmsp ac l hinc h2 cs hcs, htd]
    rw [if_neg (by omega)]
  · apply div_nonneg
    · exact_mod_cast b1
    · exact le_of_lt hpos
  · rw [div_le_one hpos]
    exact_mod_cast b2
  · rw [div_eq_one_iff_eq (ne_of_gt hpos), ← b3]
    exact_mod_cast Iff.rfl

theorem coveredTime_mono (m n : Int) (h : m ≤ n) (l : List Int) (hs : l.Pairwise (· < ·)) : coveredTime m l ≤ coveredTime n l := by
  induction l with
  | nil => exact le_refl _
  | cons x l ih =>
    cases l with
    | nil => exact le_refl _
    | cons y l =>
      have hxy := (List.pairwise_cons.1 hs).1 y (by simp)
      have := ih (List.pairwise_cons.1 hs).2
      rw [coveredTime_cons, coveredTime_cons]
      by_cases h1 : y - x ≤ m
      · rw [if_pos h1, if_pos (by omega)]; omega
      · rw [if_neg h1]
        by_cases h3 : y - x ≤ n
        · rw [if_pos h3]; omega
        · rw [if_neg h3]; omega

/-- C113. A longer `max_sample_period` does not give a shorter uptime. -/
theorem C113_monotone (m n : Int) (hm : 0 ≤ m) (hmn : m ≤ n) (ac : String) (l : List (Int × Rat))
    (hinc : l.Pairwise (fun x y => x.1 < y.1)) (h2 : 2 ≤ l.length) (cs cs' : Int) (hcs : 0 < cs) (hcs' : 0 < cs') :
    ∃ u v, meterUptime (some (asTable ac l)) m TF.blank none cs = .ok u ∧
      meterUptime (some (asTable ac l)) n TF.blank none cs' = .ok v ∧ u ≤ v :=
  ⟨_, _, C113_whole_partial m hm ac l hinc h2 cs hcs, C113_whole_partial n (by omega) ac l hinc h2 cs' hcs',
    coveredTime_mono m n hmn _ (by rw [List.pairwise_map]; exact hinc)⟩

theorem coveredWithin_split (msp : Int) (a b : Option Int) (r : Int) (l : List Int) (hs : l.Pairwise (· < ·))
    (hr : ∀ x y, (x, y) ∈ l.zip l.tail → x < r → y ≤ r) (hb : between a b r = true) :
    coveredWithin msp a b l = coveredWithin msp a (some r) l + coveredWithin msp (some r) b l := by
  induction l with
  | nil => rfl
  | cons x l ih =>
    cases l with
    | nil => rfl
    | cons y l =>
      have hxy := (List.pairwise_cons.1 hs).1 y (by simp)
      have hxr := hr x y (by simp)
      rw [coveredWithin_cons, coveredWithin_cons, coveredWithin_cons, ih (List.pairwise_cons.1 hs).2 (by
        intro x' y' h h3
        exact hr x' y' (by
          simp only [List.tail_cons] at h ⊢
          rw [List.zip_cons_cons]
          exact List.mem_cons_of_mem _ h) h3)]
      have key : (if between a b x = true ∧ y - x ≤ msp then (b.map (min y)).getD y - x else 0) =
          (if between a (some r) x = true ∧ y - x ≤ msp then ((some r).map (min y)).getD y - x else 0) +
          (if between (some r) b x = true ∧ y - x ≤ msp then (b.map (min y)).getD y - x else 0) := by
        by_cases hm : y - x ≤ msp
        · rcases a with _ | a <;> rcases b with _ | b <;> simp [between, hm] at hb ⊢ <;> split_ifs <;> omega
        · simp [hm]
      rw [key]
      omega

theorem mem_zip_tail_next (l : List Int) (hs : l.Pairwise (· < ·)) (r : Int) (hr : r ∈ l) (x y : Int)
    (h : (x, y) ∈ l.zip l.tail) (hlt : x < r) : y ≤ r := by
  induction l with
  | nil => simp at h
  | cons z l ih =>
    cases l with
    | nil => simp at h
    | cons w l =>
      simp only [List.tail_cons, List.zip_cons_cons, List.mem_cons, Prod.mk.injEq] at h
      rcases h with ⟨rfl, rfl⟩ | h
      · rcases List.mem_cons.1 hr with rfl | hr
        · omega
        · rcases List.mem_cons.1 hr with rfl | hr
          · exact le_refl _
          · exact le_of_lt ((List.pairwise_cons.1 (List.pairwise_cons.1 hs).2).1 r hr)
      · have hr' : r ∈ w :: l := by
          rcases List.mem_cons.1 hr with rfl | hr
          · exfalso
            have : x ∈ w :: l := by
              have := List.of_mem_zip h
              exact this.1
            have := (List.pairwise_cons.1 hs).1 x this
            omega
          · exact hr
        exact ih (List.pairwise_cons.1 hs).2 hr' h

/-- C113. Dividing a window at a reading divides the uptime: if the uptimes of both parts can be computed and each holds another
reading, they add up to the whole. -/
theorem C113_windows_add (msp : Int) (hmsp : 0 ≤ msp) (ac : String) (l : List (Int × Rat))
    (hinc : l.Pairwise (fun x y => x.1 < y.1)) (a b : Option Int) (r : Int × Rat) (hr : r ∈ l) (hbr : between a b r.1 = true)
    (x : Int × Rat) (hx : x ∈ l) (hxr : x.1 < r.1) (hax : between a none x.1 = true)
    (y : Int × Rat) (hy : y ∈ l) (hry : r.1 < y.1) (hby : between none b y.1 = true)
    (cs : Int) (hcs : 0 < cs) (u v : Int)
    (hu : meterUptime (some (asTable ac l)) msp (mk' a (some r.1)) none cs = .ok u)
    (hv : meterUptime (some (asTable ac l)) msp (mk' (some r.1) b) none cs = .ok v) :
    meterUptime (some (asTable ac l)) msp (mk' a b) none cs = .ok (u + v) := by
  have two : ∀ (p : Int × Rat → Bool) (s t : Int × Rat), s ∈ l → t ∈ l → s.1 < t.1 → p s = true → p t = true →
      2 ≤ (l.filter p).length := by
    intro p s t hs ht hst h1 h3
    have m1 := List.mem_filter.2 ⟨hs, h1⟩
    have m2 := List.mem_filter.2 ⟨ht, h3⟩
    generalize l.filter p = k at m1 m2
    match k with
    | [] => simp at m1
    | [z] => simp at m1 m2; subst m1; subst m2; omega
    | _ :: _ :: _ => simp
  have hl2 : 2 ≤ l.length := by
    have := two (fun _ => true) x r hx hr hxr rfl rfl
    simpa using this
  have hra : between a none r.1 = true ∧ between none b r.1 = true := by
    simp only [between, Bool.and_eq_true] at hbr ⊢
    exact ⟨⟨hbr.1, rfl⟩, rfl, hbr.2⟩
  have n1 := two (fun q => between a (some r.1) q.1) x r hx hr hxr (by
    simp only [between, Option.all_none, Bool.and_true] at hax
    simp [between, hax, le_of_lt hxr]) (by
    have := hra.1
    simp only [between, Option.all_none, Bool.and_true] at this
    simp [between, this])
  have n2 := two (fun q => between (some r.1) b q.1) r y hr hy hry (by
    have := hra.2
    simp only [between, Option.all_none, Bool.true_and] at this
    simp [between, this]) (by
    simp only [between, Option.all_none, Bool.true_and] at hby
    simp [between, hby, le_of_lt hry])
  have n3 := two (fun q => between a b q.1) x r hx hr hxr (by
    have := hra.2
    rcases a with _ | a <;> rcases b with _ | b <;> simp [between] at hax this ⊢ <;> omega) hbr
  have c1 := (C113_uptime msp hmsp ac l hinc hl2 a (some r.1) cs hcs).2 n1
  have c2 := (C113_uptime msp hmsp ac l hinc hl2 (some r.1) b cs hcs).2 n2
  have c3 := (C113_uptime msp hmsp ac l hinc hl2 a b cs hcs).2 n3
  have e1 : ¬ EndsAtLone msp a (some r.1) (l.map Prod.fst) := fun h => by rw [c1.1 h] at hu; cases hu
  have e2 : ¬ EndsAtLone msp (some r.1) b (l.map Prod.fst) := fun h => by rw [c2.1 h] at hv; cases hv
  rw [c1.2 e1] at hu
  rw [c2.2 e2] at hv
  have e3 : ¬ EndsAtLone msp a b (l.map Prod.fst) := by
    rintro ⟨z, hz, rfl, hq, hall⟩
    apply e2
    refine ⟨z, hz, rfl, hq, ?_⟩
    intro t ht htb htz
    refine hall t ht ?_ htz
    have := hra.1
    rcases a with _ | a <;> simp [between] at htb this ⊢ <;> omega
  rw [c3.2 e3]
  simp only [Except.ok.injEq] at hu hv
  rw [← hu, ← hv]
  have hs : (l.map Prod.fst).Pairwise (· < ·) := by rw [List.pairwise_map]; exact hinc
  rw [coveredWithin_split msp a b r.1 _ hs (fun s t h1 h3 => mem_zip_tail_next _ hs r.1 (List.mem_map_of_mem hr) s t h1 h3) hbr]

/-- C113. A meter without a table is a `KeyError`; a meter with a single reading has no time frame: `ValueError`. -/
theorem C113_no_data (msp : Int) (ac : String) (r : Int × Rat) (w : TF) (cs : Int) :
    meterUptime none msp w none cs = .error .keyError ∧ proportionUptime none msp w cs = .error .keyError ∧
    meterUptime (some (asTable ac [r])) msp w none cs = .error .valueError ∧
    proportionUptime (some (asTable ac [r])) msp w cs = .error .valueError := by
  have h : TF.ctor (some r.1) (some r.1) = .error .valueError := by
    simp [TF.ctor, TF.setStart, TF.setEnd, TF.blank, TF.start, TF.stop]
  have ht : tableTimeframe (asTable ac [r]).rows w = .error .valueError := by
    simp only [tableTimeframe, asTable, List.map_cons, List.map_nil, List.head?_cons, List.getLast?_singleton, h]
  refine ⟨rfl, rfl, ?_, ?_⟩
  · simp only [meterUptime, meterGoodSections, askedSections, ht]
  · simp only [proportionUptime, ht]

/-- C113, negation for windows: a window which ends at a reading after a long gap, followed by a short one, is a `ValueError`, one
nanosecond more is not; a window with one reading is not covered at all, although the next reading is near, and with it
the uptimes of adjoining windows do not add up. -/
theorem C113_window_counterexample :
    let t := asTable "active" [(0, 1), (10, 1), (100, 1), (110, 1), (120, 1)]
    meterUptime (some t) 10 (mk' none (some 100)) none 5 = .error .valueError ∧
    meterUptime (some t) 10 (mk' none (some 101)) none 5 = .ok 11 ∧
    meterUptime (some t) 10 (mk' (some 90) (some 105)) none 5 = .ok 0 ∧
    meterUptime (some t) 10 (mk' (some 100) (some 115)) none 5 = .ok 15 ∧
    meterUptime (some t) 10 (mk' (some 115) none) none 5 = .ok 0 ∧
    meterUptime (some t) 10 TF.blank none 5 = .ok 30 := by
  refine ⟨?_, ?_, ?_, ?_, ?_, ?_⟩ <;> decide +kernel

/-! ### The hypotheses can be met -/

/-- Of a file out of order: readings at 3, 5, 7 and 100 seconds. -/
example {sort : List (Int × Option Rat) → List (Int × Option Rat)} (hs : SortsByTime sort) (cs : Int) (hcs : 0 < cs) :
    meterUptime ((convertRedd sort (some energyTree)).1 (meterKey 2 3)) (10 * 1000000000) TF.blank none cs =
      .ok 4000000000 := by
  rw [C113_redd_partial hs energyTree_expected 2 3 (by decide) (by decide)
    [(7, 0), (3, 7200000), (5, 20000000), (100, 1)] [(3, 7200000), (5, 20000000), (7, 0), (100, 1)]
    ⟨[("channel_3.dat".toList, some [(7, some 0), (3, some 7200000), (5, some 20000000), (100, some 1)])], by decide +kernel,
      by decide +kernel⟩ (by decide +kernel) (by decide +kernel) (by decide) 10 (by decide) cs hcs]
  decide +kernel

/-- Two parts of a window divided at the reading 110. -/
example : meterUptime (some (asTable "active" [(0, 1), (10, 1), (100, 1), (110, 1), (120, 1), (130, 1)])) 10
    (mk' (some 0) (some 125)) none 2 = .ok (20 + 15) :=
  C113_windows_add 10 (by decide) "active" _ (by decide) _ _ (110, 1) (by decide) (by decide) (0, 1) (by decide) (by decide)
    (by decide) (120, 1) (by decide) (by decide) (by decide) 2 (by decide) 20 15 (by decide +kernel) (by decide +kernel)

/-- The given section ends before the window. -/
example : meterGoodSections (some (asTable "active" [(0, 1), (10, 1), (100, 1), (110, 1), (120, 1), (130, 1)])) 10
    (mk' (some 0) (some 125)) (some [mk' (some 5) (some 112)]) 2 =
      .ok [{ mk' (some 100) (some 112) with includeEnd := true }] := by
  rw [C113_given_section_partial 10 (by decide) "active" _ (by decide) _ _ 5 112 (by decide) 2 (by decide) _ rfl (by decide)
    (110, 1) (by decide +kernel) true (by decide) [[10], [100, 110]] (.cons [10] 10 100 [110] _ trivial rfl (by decide)
      (.single _ (by simp) ⟨by decide, trivial⟩))]
  decide +kernel

/-- The sections of that window: the last one ends with it. -/
example : meterGoodSections (some (asTable "active" [(0, 1), (10, 1), (100, 1), (110, 1), (120, 1), (130, 1)])) 10
    (mk' (some 0) (some 125)) none 2 =
      .ok [mk' (some 0) (some 10), { mk' (some 100) (some 125) with includeEnd := true }] := by
  rw [C113_sections_partial 10 (by decide) "active" _ (by decide) _ _ 2 (by decide) _ rfl (by decide) (120, 1) (by decide +kernel) true
    (by decide) [[0, 10], [100, 110, 120]] (.cons [0, 10] 10 100 [110, 120] _ ⟨by decide, trivial⟩ rfl (by decide)
      (.single _ (by simp) ⟨by decide, by decide, trivial⟩))]
  decide +kernel

end Nilmtk
