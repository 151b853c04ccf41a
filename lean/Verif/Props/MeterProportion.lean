import Verif.Model.MeterProportion
import Verif.Props.Experiment
import Verif.Props.MeterAverage
import Verif.Props.MeterDropout
import Verif.Props.Proportion
/-!
C117: from the files of REDD to the proportion of energy of a meter, and to the proportion of energy submetered.
-/
namespace Nilmtk
open TF

/-! ### Specification -/

/-- From the first time to the second one, which is in it only if the flag is set. -/
def inSpan (s : (Int × Int) × Bool) (t : Int) : Bool := decide (s.1.1 ≤ t) && (if s.2 then decide (t ≤ s.1.2) else decide (t < s.1.2))

/-- What counts of the good sections: each from its first to its last reading, which is in it only for the last section; that
goes on to the end of the window if the readings do. -/
def goodSpans (goesOn : Bool) (hi : Int) (runs : List (List Int)) : List ((Int × Int) × Bool) :=
  (goodRuns goesOn runs).dropLast.map (fun q => (ends q, false)) ++
    (goodRuns goesOn runs).getLast?.toList.map (fun r => (((ends r).1, if goesOn then hi else (ends r).2), true))

/-- The energy in kWh of the readings in the spans; the time between them counts nothing. -/
def spanKwh (msp : Rat) (spans : List ((Int × Int) × Bool)) (k : List (Int × Rat)) : Rat :=
  (spans.map (fun s => kwhOf msp (k.filter (fun r => inSpan s r.1)))).sum

/-- There are two readings in one of the spans. -/
def SpanData (spans : List ((Int × Int) × Bool)) (k : List (Int × Rat)) : Prop :=
  ∃ s ∈ spans, 2 ≤ (k.filter (fun r => inSpan s r.1)).length

/-- The meter has the readings `l` of the AC type `ac`, which are `k` when limited as its device says. -/
def StoredAs (m : StoredMeter) (ac : String) (l k : List (Int × Rat)) : Prop :=
  m.table = some (asTable ac l) ∧ (ac = "active" ∨ ac = "apparent" ∨ ac = "reactive") ∧ l.Pairwise (fun x y => x.1 < y.1) ∧
    ∃ f, LimitedBy m.measurements ("power", ac) f ∧ k = l.map (fun r => (r.1, f r.2))

/-- `max_sample_period` in seconds. -/
def StoredMeter.seconds (m : StoredMeter) : Rat := (m.maxSamplePeriod : Rat) / 1000000000

/-! ### Sections -/

/-- The time frame of a span. -/
def spanFrame (s : (Int × Int) × Bool) : TF := built (some s.1.1) (some s.1.2) false s.2

/-- Spans in order and apart, in the window. -/
structure SpansIn (a b : Option Int) (spans : List ((Int × Int) × Bool)) : Prop where
  apart : spans.Pairwise (fun s d => s.1.2 < d.1.1)
  lt : ∀ s ∈ spans, s.1.1 < s.1.2
  lower : ∀ s ∈ spans, ∀ x, a = some x → x ≤ s.1.1
  upper : ∀ s ∈ spans, ∀ y, b = some y → s.1.2 ≤ y

theorem window_and_span (a b : Option Int) (s : (Int × Int) × Bool) (hlt : s.1.1 < s.1.2) (ha : ∀ x, a = some x → x ≤ s.1.1)
    (hb : ∀ y, b = some y → s.1.2 ≤ y) : (mk' a b).intersection (spanFrame s) = spanFrame s := by
  obtain ⟨⟨x, y⟩, c⟩ := s
  simp only at hlt ha hb
  have h1 : interStart (mk' a b) (spanFrame ((x, y), c)) = some x := by
    cases a with
    | none => rfl
    | some z =>
      show some (max z x) = some x
      rw [max_eq_right (ha z rfl)]
  have h2 : interEnd (mk' a b) (spanFrame ((x, y), c)) = some y := by
    cases b with
    | none => rfl
    | some z =>
      show some (min z y) = some y
      rw [min_eq_right (hb z rfl)]
  have h3 : interInclude (mk' a b) (spanFrame ((x, y), c)) = c := by
    unfold interInclude
    rw [h2]
    exact if_pos rfl
  unfold intersection
  rw [if_neg (by cases a <;> cases b <;> simp [mk', spanFrame, built]), h1, h2, h3]
  show (if x ≥ y then _ else _) = _
  rw [if_neg (by omega)]
  rfl

theorem inSpan_mem (s : (Int × Int) × Bool) (t : Int) : inSpan s t = true ↔ Mem t (spanFrame s) := by
  obtain ⟨⟨x, y⟩, c⟩ := s
  cases c <;> simp [inSpan, Mem, spanFrame, built, TF.start, TF.stop] <;> omega

theorem span_part (ms : List Measurement) (msp : Rat) (ac : String) (f : Rat → Rat)
    (hf : LimitedBy ms ("power", ac) f) (hac : acNamed ac ∈ acTypes) (rows : List (Row (Option Rat)))
    (hinc : Increasing rows) (hnum : ∀ r ∈ rows, r.2 ≠ none) (a b : Option Int) (s : (Int × Int) × Bool)
    (hs : s.1.1 < s.1.2) (ha : ∀ x, a = some x → x ≤ s.1.1) (hb : ∀ y, b = some y → s.1.2 ≤ y) (cs : Int) (hcs : 0 < cs) :
    ∃ out zs, (loadSection (some rows) (mk' a b) 0 cs (spanFrame s)).1 = ⟨out, none⟩ ∧
      List.Forall₂ (IsPart ms msp [("power", ac)] (acNamed ac)) out zs ∧
      (∀ z ∈ zs, z.1.1 < z.1.2 ∧ s.1.1 ≤ z.1.1 ∧ z.1.2 ≤ s.1.2) ∧ zs.Pairwise (fun c d => c.1.2 ≤ d.1.1) ∧
      (zs.filterMap Prod.snd).sum =
        kwhOf msp (dropna ((rows.filter (fun r => inSpan s r.1)).map (fun r => (r.1, r.2.map f)))) ∧
      ((∃ z ∈ zs, z.2 ≠ none) ↔ 2 ≤ (rows.filter (fun r => inSpan s r.1)).length) := by
  have hw := window_and_span a b s hs ha hb
  have hp : ∀ t, inSpan s t = true ↔ Mem t ((mk' a b).intersection (spanFrame s)) := by
    intro t; rw [hw, inSpan_mem]
  have w1 : ((mk' a b).intersection (spanFrame s)).start = some s.1.1 := by rw [hw]; rfl
  have w2 : ((mk' a b).intersection (spanFrame s)).stop = some s.1.2 := by rw [hw]; rfl
  have he : ((mk' a b).intersection (spanFrame s)).empty = false := by rw [hw]; rfl
  have hempty : ∀ k : List (Row (Option Rat)), k.length < 2 → kwhOf msp (dropna (k.map (fun r => (r.1, r.2.map f)))) = 0 := by
    intro k hk
    apply kwhOf_few
    refine lt_of_le_of_lt ?_ hk
    clear hk
    induction k with
    | nil => simp [dropna]
    | cons r k ih =>
      obtain ⟨t, v⟩ := r
      cases v <;> simp [dropna] at ih ⊢ <;> omega
  by_cases h2 : 2 ≤ (rows.filter (fun r => inSpan s r.1)).length
  · obtain ⟨out, x, y, k1, k2, k3, k4, k5, k6, k7⟩ := section_out ms msp ac f hf hac rows hinc (mk' a b)
      (spanFrame s) cs hcs _ hp (by rw [w1]; simp) h2 (fun r hr _ => hnum r hr)
    have hx := k3 _ w1
    have hy := k4 _ w2
    subst hx hy
    obtain ⟨bs, b1, b2, b3⟩ := tiles_bounds k5
    have hup := (tiles_upper k5).2
    have hlen : out.length = bs.length := by simpa using b1.length_eq
    set en : Chunk (Option Rat) → Rat := fun c => energyForPowerSeries msp (c.rows.map (fun r => (r.1, r.2.map f))) with hen
    refine ⟨out, (bs.zip out).map (fun q => (q.1, some (en q.2))), k1, ?_, ?_, ?_, ?_, ?_⟩
    · clear k1 k2 k5 k7 b2 b3 hup
      induction out generalizing bs with
      | nil => simp
      | cons c out ih =>
        cases bs with
        | nil => simp at hlen
        | cons d bs =>
          rw [List.map_cons, List.forall₂_cons] at b1
          rw [List.zip_cons_cons, List.map_cons]
          exact .cons ⟨b1.1.1, b1.1.2.1, b1.1.2.2, k6 c List.mem_cons_self⟩
            (ih (fun d hd => k6 d (List.mem_cons_of_mem _ hd)) bs b1.2 (by simpa using hlen))
    · intro z hz
      obtain ⟨⟨d, c⟩, hq, rfl⟩ := List.mem_map.1 hz
      have hd := (List.of_mem_zip hq).1
      obtain ⟨g, hg, hgd⟩ : ∃ g ∈ out.map Chunk.timeframe, g.stop = some d.2 := by
        generalize out.map Chunk.timeframe = gs at b1
        clear * - b1 hd
        induction b1 with
        | nil => cases hd
        | @cons g d' gs bs h _ ih =>
          rcases List.mem_cons.1 hd with rfl | hd
          · exact ⟨g, List.mem_cons_self, h.2.1⟩
          · obtain ⟨g', m, e⟩ := ih hd
            exact ⟨g', List.mem_cons_of_mem _ m, e⟩
      have h1 := b2 d hd
      have h3 := hup g hg d.2 hgd
      exact ⟨h1.1, by simp only; omega, by simp only; omega⟩
    · rw [List.pairwise_map]
      have : ((bs.zip out).map Prod.fst).Pairwise (fun c d : Int × Int => c.2 ≤ d.1) := by
        rw [List.map_fst_zip (by omega)]; exact b3
      rw [List.pairwise_map] at this
      exact this
    · rw [← k7, List.filterMap_map]
      have : ((bs.zip out).filterMap ((Prod.snd : (Int × Int) × Option Rat → Option Rat) ∘ fun q => (q.1, some (en q.2)))) =
          ((bs.zip out).map Prod.snd).map en := by
        rw [List.map_map, ← List.filterMap_eq_map]
        rfl
      rw [this, List.map_snd_zip (by omega)]
    · refine ⟨fun _ => h2, fun _ => ?_⟩
      obtain ⟨c, out, rfl⟩ := List.exists_cons_of_ne_nil k2
      cases bs with
      | nil => simp at hlen
      | cons d bs => exact ⟨_, List.mem_cons_self, by simp⟩
  · have h2' : (rows.filter (fun r => inSpan s r.1)).length < 2 := by omega
    rcases section_few rows hinc (mk' a b) (spanFrame s) cs hcs _ hp he (by rw [w1]; simp) h2' with h | h
    · refine ⟨[], [], h, .nil, by simp, .nil, ?_, ?_⟩
      · rw [hempty _ h2']; rfl
      · simp only [List.not_mem_nil, false_and, exists_false, false_iff]; omega
    · refine ⟨_, [(s.1, none)], h, .cons ⟨w1, w2, he, rfl⟩ .nil, ?_, ?_, ?_, ?_⟩
      · intro z hz
        simp only [List.mem_singleton] at hz
        subst hz
        exact ⟨hs, le_refl _, le_refl _⟩
      · simp
      · rw [hempty _ h2']; rfl
      · simp only [List.mem_singleton, exists_eq_left, ne_eq, not_true_eq_false, false_iff]; omega

theorem spans_parts (ms : List Measurement) (msp : Rat) (ac : String) (f : Rat → Rat)
    (hf : LimitedBy ms ("power", ac) f) (hac : acNamed ac ∈ acTypes) (rows : List (Row (Option Rat)))
    (hinc : Increasing rows) (hnum : ∀ r ∈ rows, r.2 ≠ none) (a b : Option Int) (cs : Int) (hcs : 0 < cs)
    (spans : List ((Int × Int) × Bool)) (hsp : SpansIn a b spans) (flag : Bool) :
    ∃ out zs, (loadSections (some rows) (mk' a b) 0 cs (spans.map spanFrame) flag).1 = ⟨out, none⟩ ∧
      List.Forall₂ (IsPart ms msp [("power", ac)] (acNamed ac)) out zs ∧
      (∀ z ∈ zs, z.1.1 < z.1.2 ∧ ∃ s ∈ spans, s.1.1 ≤ z.1.1 ∧ z.1.2 ≤ s.1.2) ∧
      zs.Pairwise (fun c d => c.1.2 ≤ d.1.1 ∨ d.1.2 ≤ c.1.1) ∧
      (zs.filterMap Prod.snd).sum = (spans.map (fun s =>
        kwhOf msp (dropna ((rows.filter (fun r => inSpan s r.1)).map (fun r => (r.1, r.2.map f)))))).sum ∧
      ((∃ z ∈ zs, z.2 ≠ none) ↔ ∃ s ∈ spans, 2 ≤ (rows.filter (fun r => inSpan s r.1)).length) := by
  induction spans generalizing flag with
  | nil => exact ⟨[], [], rfl, .nil, by simp, .nil, rfl, by simp⟩
  | cons s spans ih =>
    obtain ⟨p1, p2⟩ := List.pairwise_cons.1 hsp.apart
    obtain ⟨out1, zs1, a1, a2, a3, a4, a5, a6⟩ := span_part ms msp ac f hf hac rows hinc hnum a b s
      (hsp.lt s List.mem_cons_self) (hsp.lower s List.mem_cons_self) (hsp.upper s List.mem_cons_self) cs hcs
    obtain ⟨out2, zs2, b1, b2, b3, b4, b5, b6⟩ := ih ⟨p2, fun d hd => hsp.lt d (List.mem_cons_of_mem _ hd),
      fun d hd => hsp.lower d (List.mem_cons_of_mem _ hd), fun d hd => hsp.upper d (List.mem_cons_of_mem _ hd)⟩
      (flag && !(loadSection (some rows) (mk' a b) 0 cs (spanFrame s)).2)
    refine ⟨out1 ++ out2, zs1 ++ zs2, ?_, List.rel_append a2 b2, ?_, ?_, ?_, ?_⟩
    · rw [List.map_cons, loadSections]
      simp only [a1, b1, Gen.append]
    · intro z hz
      rcases List.mem_append.1 hz with hz | hz
      · have := a3 z hz
        exact ⟨this.1, s, List.mem_cons_self, this.2⟩
      · obtain ⟨c1, d, hd, c2⟩ := b3 z hz
        exact ⟨c1, d, List.mem_cons_of_mem _ hd, c2⟩
    · rw [List.pairwise_append]
      refine ⟨a4.imp (fun h => .inl h), b4, ?_⟩
      intro z hz w hw
      have h1 := a3 z hz
      obtain ⟨_, d, hd, h2⟩ := b3 w hw
      have h3 := p1 d hd
      omega
    · rw [List.filterMap_append, List.sum_append, a5, b5, List.map_cons, List.sum_cons]
    · constructor
      · rintro ⟨z, hz, hn⟩
        rcases List.mem_append.1 hz with hz | hz
        · exact ⟨s, List.mem_cons_self, a6.1 ⟨z, hz, hn⟩⟩
        · obtain ⟨d, hd, h⟩ := b6.1 ⟨z, hz, hn⟩
          exact ⟨d, List.mem_cons_of_mem _ hd, h⟩
      · rintro ⟨d, hd, h⟩
        rcases List.mem_cons.1 hd with rfl | hd
        · obtain ⟨z, hz, hn⟩ := a6.2 h
          exact ⟨z, List.mem_append_left _ hz, hn⟩
        · obtain ⟨z, hz, hn⟩ := b6.2 ⟨d, hd, h⟩
          exact ⟨z, List.mem_append_right _ hz, hn⟩

open Classical in
/-- The energy of a meter in spans. -/
theorem energy_in_spans (ms : List Measurement) (msp : Rat) (ac : String)
    (hac : ac = "active" ∨ ac = "apparent" ∨ ac = "reactive") (f : Rat → Rat) (hf : LimitedBy ms ("power", ac) f)
    (l : List (Int × Rat)) (hinc : l.Pairwise (fun x y => x.1 < y.1)) (a b : Option Int) (spans : List ((Int × Int) × Bool))
    (hsp : SpansIn a b spans) (cs : Int) (hcs : 0 < cs) (k : List (Int × Rat)) (hk : k = l.map (fun r => (r.1, f r.2))) :
    meterTotalEnergy (some (asTable ac l)) ms msp (mk' a b) (some (spans.map spanFrame)) cs =
      .ok (if SpanData spans k then [(acNamed ac, spanKwh msp spans k)] else []) := by
  have hac' : acNamed ac ∈ acTypes := by rcases hac with rfl | rfl | rfl <;> decide
  set rows : List (Row (Option Rat)) := l.map (fun r => (r.1, some r.2)) with hrows
  have hi : Increasing rows := by
    unfold Increasing
    rw [hrows, List.pairwise_map]
    exact hinc
  have hnum : ∀ r ∈ rows, r.2 ≠ none := by
    intro r hr
    rw [hrows] at hr
    obtain ⟨q, _, rfl⟩ := List.mem_map.1 hr
    simp
  have hfil : ∀ s, rows.filter (fun r => inSpan s r.1) = (l.filter (fun r => inSpan s r.1)).map (fun r => (r.1, some r.2)) := by
    intro s
    rw [hrows, List.filter_map]
    rfl
  have hfk : ∀ s, k.filter (fun r => inSpan s r.1) = (l.filter (fun r => inSpan s r.1)).map (fun r => (r.1, f r.2)) := by
    intro s
    rw [hk, List.filter_map]
    rfl
  have hdrop : ∀ k : List (Int × Rat), dropna ((k.map (fun r => (r.1, some r.2))).map (fun r => (r.1, r.2.map f))) =
      k.map (fun r => (r.1, f r.2)) := by
    intro k
    induction k with
    | nil => rfl
    | cons r k ih => simp only [List.map_cons, Option.map_some, dropna] at ih ⊢; rw [ih]
  have hcomp : statSections (asTable ac l).rows (mk' a b) (some (spans.map spanFrame)) = .ok (spans.map spanFrame) := by
    simp only [statSections]
    rw [List.filter_eq_self.2 (by
      intro g hg
      obtain ⟨q, _, rfl⟩ := List.mem_map.1 hg
      rfl)]
    apply sectionsToCompute_sorted
    rw [List.pairwise_map]
    refine (List.Pairwise.and_mem.1 hsp.apart).imp ?_
    rintro s d ⟨h1, _, h2⟩
    have := hsp.lt s h1
    exact ⟨_, _, rfl, rfl, by omega⟩
  obtain ⟨out, zs, h1, h2, h3, h4, h5, h6⟩ := spans_parts ms msp ac f hf hac' rows hi hnum a b cs hcs spans hsp true
  simp only [hfil, hdrop, List.length_map, ← hfk] at h5 h6
  have h6' : (∃ z ∈ zs, z.2 ≠ none) ↔ SpanData spans k := by
    rw [h6]
    unfold SpanData
    simp only [hfk, List.length_map]
  have h5' : (zs.filterMap Prod.snd).sum = spanKwh msp spans k := h5
  clear h5 h6
  obtain ⟨t, e1, e2, e3, e4, e5⟩ := energyOfChunks_parts ms msp [("power", ac)] (acNamed ac) hac' out zs h2
    (fun z hz => (h3 z hz).1) h4 ⟨[], []⟩ ⟨by simp, by simp⟩ (.inl rfl) (by simp)
  simp only [List.nil_eq, List.cons_ne_nil, false_or, List.append_nil] at e4 e5
  have hcomb : ∀ rows', rows'.Perm t.rows → TEResults.combined ⟨t.cols, rows'⟩ =
      if SpanData spans k then [(acNamed ac, spanKwh msp spans k)] else [] := by
    intro rows' hp
    by_cases hsome : SpanData spans k
    · rw [if_pos hsome]
      unfold TEResults.combined
      simp only
      rw [e4.2 (h6'.2 hsome), List.map_singleton, skipSum_perm ((hp.trans e5).map _), skipSum_parts, h5']
    · rw [if_neg hsome]
      rcases e3 with h | h
      · unfold TEResults.combined
        simp only [h, List.map_nil]
      · exact absurd (h6'.1 (e4.1 h)) hsome
  have hupd : ∃ res, TEResults.update ⟨[], []⟩ t = .ok res ∧ res.combined =
      if SpanData spans k then [(acNamed ac, spanKwh msp spans k)] else [] := by
    unfold TEResults.update
    by_cases hr : t.rows.isEmpty = true
    · rw [if_pos hr]
      refine ⟨_, rfl, ?_⟩
      rw [if_neg]
      · rfl
      · intro hsome
        obtain ⟨z, hz, _⟩ := h6'.2 hsome
        rw [List.isEmpty_iff.1 hr] at e5
        have := e5.length_eq
        simp only [List.length_nil, List.length_map] at this
        exact absurd (List.length_pos_of_mem hz) (by omega)
    · rw [if_neg hr]
      obtain ⟨u1, _, u3⟩ := (C29_update [] t.rows ⟨by simp, by simp⟩ e2).1 (by simp)
      cases hu : Results.update [] t.rows with
      | mk x y =>
        rw [hu] at u1 u3
        simp only at u1 u3
        subst u1
        refine ⟨_, rfl, ?_⟩
        have hcols : ([] : List AC) ++ t.cols.filter (fun c => c ∉ ([] : List AC)) = t.cols := by simp
        simp only [hcols]
        exact hcomb x u3
  obtain ⟨res, r1, r2⟩ := hupd
  unfold meterTotalEnergy
  simp only [hcomp]
  cases spans with
  | nil => simp [SpanData]
  | cons s spans =>
    simp only [List.map_cons] at h1 ⊢
    have hc : computeEnergy (asTable ac l) ms msp (mk' a b) (spanFrame s :: spans.map spanFrame) cs = .ok res := by
      unfold computeEnergy
      have hl : (hdfLoad (some rows) (mk' a b) (some (spanFrame s :: spans.map spanFrame)) 0 cs).1 = ⟨out, none⟩ := h1
      show (match energyOfChunks ms msp [("power", ac)] ⟨[], []⟩
        (hdfLoad (some rows) (mk' a b) (some (spanFrame s :: spans.map spanFrame)) 0 cs).1.out with
        | .error e => _ | .ok computed => _) = _
      rw [hl]
      simp only [e1]
      show (match (hdfLoad (some rows) (mk' a b) (some (spanFrame s :: spans.map spanFrame)) 0 cs).1.err with
        | some e => _ | none => _) = _
      rw [hl]
      exact r1
    rw [hc]
    simp only [r2]

/-- The good sections of a meter are spans. -/
theorem good_spans (msp : Int) (hmsp : 0 ≤ msp) (ac : String) (l : List (Int × Rat))
    (hinc : l.Pairwise (fun x y => x.1 < y.1)) (a b : Option Int) (cs : Int) (hcs : 0 < cs)
    (inside : List (Int × Rat)) (hin : inside = l.filter (fun r => between a b r.1)) (h2 : 2 ≤ inside.length)
    (last : Int × Rat) (hlast : inside.getLast? = some last) (goesOn : Bool)
    (hgo : goesOn = true ↔ ∃ q ∈ l, last.1 < q.1 ∧ q.1 - last.1 ≤ msp)
    (runs : List (List Int)) (hruns : MaximalRuns msp (inside.map Prod.fst) runs)
    (hv : ¬ (goesOn = true ∧ b = some last.1 ∧ runs.getLast? = some [last.1])) :
    meterGoodSections (some (asTable ac l)) msp (mk' a b) none cs =
      .ok ((goodSpans goesOn (b.getD last.1) runs).map spanFrame) ∧ SpansIn a b (goodSpans goesOn (b.getD last.1) runs) := by
  have hgs := C113_sections_partial msp hmsp ac l hinc a b cs hcs inside hin h2 last hlast goesOn hgo runs hruns
  rw [if_neg hv] at hgs
  obtain ⟨hflat, hne⟩ := runs_flatten hruns
  have hidx : (inside.map Prod.fst).Pairwise (· < ·) := by
    rw [List.pairwise_map, hin]
    exact hinc.filter _
  have hidx' : inside.map Prod.fst = (l.map Prod.fst).filter (between a b) := by
    rw [List.filter_map, hin]
    rfl
  have hbt : ∀ t ∈ inside.map Prod.fst, between a b t = true := by
    intro t ht
    rw [hidx'] at ht
    exact (List.mem_filter.1 ht).2
  have hle : ∀ t ∈ inside.map Prod.fst, t ≤ last.1 := by
    rcases List.eq_nil_or_concat inside with h | ⟨A, q, h⟩
    · rw [h] at h2; simp at h2
    · rw [h, List.concat_eq_append, List.getLast?_append_cons, List.getLast?_singleton, Option.some.injEq] at hlast
      subst hlast
      rw [h, List.concat_eq_append, List.map_append] at hidx ⊢
      intro t ht
      rcases List.mem_append.1 ht with ht | ht
      · exact le_of_lt ((List.pairwise_append.1 hidx).2.2 t ht q.1 (by simp))
      · simp at ht; omega
  have hsorted : (∀ q ∈ runs, q.Pairwise (· < ·)) ∧ runs.Pairwise (fun q k => ∀ x ∈ q, ∀ y ∈ k, x < y) := by
    rw [← hflat] at hidx
    exact List.pairwise_flatten.1 hidx
  rcases List.eq_nil_or_concat (goodRuns goesOn runs) with hnil | ⟨K, r, hg⟩
  · have hgo' : goesOn = false := by
      cases goesOn with
      | false => rfl
      | true =>
        exfalso
        unfold goodRuns at hnil
        simp only [if_true, List.append_eq_nil_iff] at hnil
        cases hl : runs.getLast? with
        | none =>
          rw [List.getLast?_eq_none_iff] at hl
          rw [hl] at hflat
          have := congrArg List.length hflat
          simp at this
          omega
        | some q => rw [hl] at hnil; simp at hnil
    have hper : periodSections goesOn (b.getD last.1) runs = [] := by
      unfold periodSections
      rw [hgo'] at hnil ⊢
      simp only [runSections_ended, hnil]
      rfl
    have hsp : goodSpans goesOn (b.getD last.1) runs = [] := by
      unfold goodSpans
      rw [hnil]
      rfl
    rw [hper] at hgs
    rw [hsp, hgs]
    exact ⟨rfl, .nil, by simp, by simp, by simp⟩
  rw [List.concat_eq_append] at hg
  obtain ⟨l1, l2, l3⟩ := goodRuns_lengths goesOn runs K r hg
  have hsub := goodRuns_sublist goesOn runs
  rw [hg] at hsub
  have hmem : ∀ q ∈ K ++ [r], q ∈ runs := fun q hq => hsub.subset hq
  have hord := hsorted.2.sublist hsub
  have hrne : r ≠ [] := hne r (hmem r (by simp))
  obtain ⟨r1, r2, r3, r4⟩ := ends_some r hrne
  have hinr : ∀ q ∈ runs, ∀ t ∈ q, t ∈ inside.map Prod.fst := by
    intro q hq t ht
    rw [← hflat]
    exact List.mem_flatten.2 ⟨q, hq, ht⟩
  -- the end of the last section
  set hi : Int := if goesOn then b.getD last.1 else (ends r).2 with hhi
  have hrle : (ends r).2 ≤ last.1 := hle _ (hinr r (hmem r (by simp)) _ r4)
  have hrse : (ends r).1 ≤ (ends r).2 := by
    rcases Nat.lt_or_ge r.length 2 with h | h
    · match r, hrne, h with
      | [x], _, _ => exact le_refl _
    · exact le_of_lt (ends_lt r (hsorted.1 r (hmem r (by simp))) h)
  have hhib : (ends r).1 < hi ∧ (ends r).2 ≤ hi ∧ (∀ y, b = some y → hi ≤ y) ∧
      (∀ t ∈ inside.map Prod.fst, (ends r).2 < t → hi < t) := by
    cases hgoes : goesOn with
    | false =>
      rw [hhi, hgoes]
      simp only [Bool.false_eq_true, if_false]
      refine ⟨ends_lt r (hsorted.1 r (hmem r (by simp))) (l2 hgoes), le_refl _, ?_, fun t _ h => h⟩
      intro y hy
      have := hbt _ (hinr r (hmem r (by simp)) _ r4)
      rw [hy] at this
      simp [between] at this
      exact this.2
    | true =>
      have hlr := l3 hgoes
      obtain ⟨q, hq, q1, q2⟩ := hgo.1 hgoes
      have hlb : between a b last.1 = true := hbt _ (List.mem_map_of_mem (List.mem_of_getLast? hlast))
      have hqn : q ∉ inside := by
        intro h
        have := hle _ (List.mem_map_of_mem h)
        omega
      have hqb : between a b q.1 = false := by
        rw [hin, List.mem_filter] at hqn
        simpa [hq] using hqn
      obtain ⟨y, hy, hy1⟩ : ∃ y, b = some y ∧ last.1 ≤ y := by
        cases b with
        | none => cases a <;> simp [between] at hlb hqb; omega
        | some y => exact ⟨y, rfl, by cases a <;> simp [between] at hlb <;> omega⟩
      have hel : (ends r).2 = last.1 := by
        have hfl : inside.map Prod.fst = runs.dropLast.flatten ++ r := by
          rcases List.eq_nil_or_concat runs with h | ⟨A, k, h⟩
          · rw [h] at hlr; simp at hlr
          · rw [h, List.concat_eq_append] at hlr hflat ⊢
            rw [List.getLast?_append_cons, List.getLast?_singleton, Option.some.injEq] at hlr
            rw [← hflat, List.dropLast_concat, ← hlr]
            simp
        have h1 : (inside.map Prod.fst).getLast? = some last.1 := by rw [List.getLast?_map, hlast]; rfl
        rw [hfl, List.getLast?_append, r2] at h1
        simpa using h1
      rw [hhi, hgoes, hy]
      simp only [if_true, Option.getD_some]
      refine ⟨?_, by omega, ?_, ?_⟩
      · rcases Nat.lt_or_ge r.length 2 with h | h
        · have hone : r = [last.1] := by
            match r, hrne, h, hel with
            | [x], _, _, hel =>
              have : x = last.1 := hel
              rw [this]
          have hyl : y ≠ last.1 := by
            intro h'
            exact hv ⟨hgoes, by rw [hy, h'], by rw [hlr, hone]⟩
          omega
        · have := ends_lt r (hsorted.1 r (hmem r (by simp))) h
          omega
      · intro z hz
        cases hz
        exact le_refl _
      · intro t ht h
        have := hle t ht
        omega
  obtain ⟨hi1, hi2, hi3, hi4⟩ := hhib
  have hfa : ∀ t ∈ inside.map Prod.fst, ∀ x, a = some x → x ≤ t := by
    intro t ht x hx
    have := hbt t ht
    rw [hx] at this
    simp [between] at this
    exact this.1
  set lastSec : TF := built (some (ends r).1) (some hi) false true with hls
  have hper : periodSections goesOn (b.getD last.1) runs = (K.map (fun q => mk' (some (ends q).1) (some (ends q).2))) ++ [lastSec] := by
    rw [periodSections_good goesOn _ runs K r hg]
    congr 1
    · apply List.map_congr_left
      intro q hq
      obtain ⟨q1, q2, _⟩ := ends_some q (hne q (hmem q (by simp [hq])))
      rw [q1, q2]
    · rw [hls, hhi, r1, r2]
      cases goesOn <;> rfl
  have hKord : ∀ q ∈ K, (ends q).1 < (ends q).2 := fun q hq => ends_lt q (hsorted.1 q (hmem q (by simp [hq]))) (l1 q hq)
  have hKK : K.Pairwise (fun q k => (ends q).2 < (ends k).1) := by
    refine (List.Pairwise.and_mem.1 (List.pairwise_append.1 hord).1).imp ?_
    rintro q k ⟨hq, hk, h⟩
    exact h _ (ends_some q (hne q (hmem q (by simp [hq])))).2.2.2 _ (ends_some k (hne k (hmem k (by simp [hk])))).2.2.1
  have hKr : ∀ q ∈ K, (ends q).2 < (ends r).1 := by
    intro q hq
    exact (List.pairwise_append.1 hord).2.2 q hq r (by simp) _ (ends_some q (hne q (hmem q (by simp [hq])))).2.2.2 _ r3
  have hsp : goodSpans goesOn (b.getD last.1) runs = K.map (fun q => (ends q, false)) ++ [(((ends r).1, hi), true)] := by
    unfold goodSpans
    rw [hg, List.dropLast_concat, List.getLast?_append_cons, List.getLast?_singleton]
    rfl
  rw [hsp, hgs, hper]
  refine ⟨by rw [List.map_append, List.map_map]; rfl, ?_, ?_, ?_, ?_⟩
  · rw [List.pairwise_append, List.pairwise_map]
    refine ⟨hKK, by simp, ?_⟩
    intro s hs d hd
    obtain ⟨q, hq, rfl⟩ := List.mem_map.1 hs
    simp only [List.mem_singleton] at hd
    subst hd
    exact hKr q hq
  · intro s hs
    rcases List.mem_append.1 hs with hs | hs
    · obtain ⟨q, hq, rfl⟩ := List.mem_map.1 hs
      exact hKord q hq
    · simp only [List.mem_singleton] at hs
      subst hs
      exact hi1
  · intro s hs x hx
    rcases List.mem_append.1 hs with hs | hs
    · obtain ⟨q, hq, rfl⟩ := List.mem_map.1 hs
      exact hfa _ (hinr q (hmem q (by simp [hq])) _ (ends_some q (hne q (hmem q (by simp [hq])))).2.2.1) x hx
    · simp only [List.mem_singleton] at hs
      subst hs
      exact hfa _ (hinr r (hmem r (by simp)) _ r3) x hx
  · intro s hs y hy
    rcases List.mem_append.1 hs with hs | hs
    · obtain ⟨q, hq, rfl⟩ := List.mem_map.1 hs
      have := hbt _ (hinr q (hmem q (by simp [hq])) _ (ends_some q (hne q (hmem q (by simp [hq])))).2.2.2)
      rw [hy] at this
      simp [between] at this
      exact this.2
    · simp only [List.mem_singleton] at hs
      subst hs
      exact hi3 y hy

/-! ### Groups -/

open Classical in
/-- The energy series of a meter in spans. -/
noncomputable def spanSeries (ac : String) (spans : List ((Int × Int) × Bool)) (msp : Rat) (k : List (Int × Rat)) : EnergySeries :=
  if SpanData spans k then [(ac, some (spanKwh msp spans k))] else []

theorem energyIn_spans (m : StoredMeter) (ac : String) (l k : List (Int × Rat)) (hm : StoredAs m ac l k) (a b : Option Int)
    (spans : List ((Int × Int) × Bool)) (hsp : SpansIn a b spans) (cs : Int) (hcs : 0 < cs) :
    m.energyIn (mk' a b) (spans.map spanFrame) cs = .ok (spanSeries ac spans m.seconds k) := by
  obtain ⟨h1, h2, h3, f, h4, h5⟩ := hm
  have := energy_in_spans m.measurements m.seconds ac h2 f h4 l h3 a b spans hsp cs hcs k h5
  unfold StoredMeter.energyIn
  unfold StoredMeter.seconds at this ⊢
  rw [h1, this]
  simp only [spanSeries]
  by_cases h : SpanData spans k
  · rw [if_pos h, if_pos h]
    simp [energySeriesOf, acString_named ac h2]
  · rw [if_neg h, if_neg h]
    rfl

theorem spanKwh_none (msp : Rat) (spans : List ((Int × Int) × Bool)) (k : List (Int × Rat)) (h : ¬ SpanData spans k) :
    spanKwh msp spans k = 0 := by
  unfold spanKwh
  apply List.sum_eq_zero
  intro x hx
  obtain ⟨s, hs, rfl⟩ := List.mem_map.1 hx
  apply kwhOf_few
  by_contra hc
  exact h ⟨s, hs, by omega⟩

open Classical in
theorem group_fold {β : Type} (ac : String) (spans : List ((Int × Int) × Bool)) (msp : β → Rat) (k : β → List (Int × Rat)) (ms : List β)
    (v : Option Rat) :
    (ms.map (fun m => spanSeries ac spans (msp m) (k m))).foldl energyIadd [(ac, v)] =
      [(ac, if ∀ m ∈ ms, SpanData spans (k m) then v.map (· + (ms.map (fun m => spanKwh (msp m) spans (k m))).sum) else none)] := by
  induction ms generalizing v with
  | nil => cases v <;> simp
  | cons m ms ih =>
    rw [List.map_cons, List.foldl_cons]
    by_cases h : SpanData spans (k m)
    · have : energyIadd [(ac, v)] (spanSeries ac spans (msp m) (k m)) = [(ac, v.map (· + spanKwh (msp m) spans (k m)))] := by
        unfold spanSeries
        rw [if_pos h]
        cases v <;> simp [energyIadd, energyPlus]
      rw [this, ih]
      simp only [List.forall_mem_cons, h, true_and, List.map_cons, List.sum_cons, Option.map_map]
      congr 3
      cases v with
      | none => rfl
      | some x => simp [add_assoc]
    · have : energyIadd [(ac, v)] (spanSeries ac spans (msp m) (k m)) = [(ac, none)] := by
        unfold spanSeries
        rw [if_neg h]
        cases v <;> simp [energyIadd, energyPlus]
      rw [this, ih]
      simp only [List.forall_mem_cons, h, false_and, if_false, Option.map_none, ite_self]

open Classical in
/-- The energy of a group in spans: the sum if every meter has data in them; if not, the sum of the series is zero. -/
theorem group_in_spans {β : Type} (ac : String) (spans : List ((Int × Int) × Bool)) (msp : β → Rat) (k : β → List (Int × Rat))
    (m : β) (ms : List β) :
    ∃ r, groupEnergy ((m :: ms).map (fun m => spanSeries ac spans (msp m) (k m))) = some r ∧
      ((∀ q ∈ m :: ms, SpanData spans (k q)) → r = [(ac, some ((m :: ms).map (fun m => spanKwh (msp m) spans (k m))).sum)]) ∧
      ((¬ ∀ q ∈ m :: ms, SpanData spans (k q)) → energySum r = 0) := by
  refine ⟨_, rfl, ?_, ?_⟩
  · intro h
    have h0 : spanSeries ac spans (msp m) (k m) = [(ac, some (spanKwh (msp m) spans (k m)))] := by
      unfold spanSeries
      rw [if_pos (h m (by simp))]
    beta_reduce
    rw [h0, group_fold, if_pos (fun q hq => h q (by simp [hq]))]
    simp
  · intro h
    by_cases hm : SpanData spans (k m)
    · have h0 : spanSeries ac spans (msp m) (k m) = [(ac, some (spanKwh (msp m) spans (k m)))] := by
        unfold spanSeries
        rw [if_pos hm]
      beta_reduce
      rw [h0, group_fold, if_neg (by
        intro hall
        apply h
        intro q hq
        rcases List.mem_cons.1 hq with rfl | hq
        · exact hm
        · exact hall q hq)]
      rfl
    · have h0 : spanSeries ac spans (msp m) (k m) = [] := by
        unfold spanSeries
        rw [if_neg hm]
      beta_reduce
      rw [h0]
      have : ∀ L : List EnergySeries, L.foldl energyIadd [] = [] := by
        intro L
        induction L with
        | nil => rfl
        | cons x L ih => rw [List.foldl_cons]; exact ih
      rw [this]
      rfl

/-! ### Theorems -/

/-- The good sections of the first of the mains as they count. -/
structure MainsSpans (m : StoredMeter) (l : List (Int × Rat)) (a b : Option Int) (spans : List ((Int × Int) × Bool)) : Prop where
  nonneg : 0 ≤ m.maxSamplePeriod
  many : 2 ≤ (l.filter (fun r => between a b r.1)).length
  spans : ∃ last goesOn runs, (l.filter (fun r => between a b r.1)).getLast? = some last ∧
    (goesOn = true ↔ ∃ q ∈ l, last.1 < q.1 ∧ q.1 - last.1 ≤ m.maxSamplePeriod) ∧
    MaximalRuns m.maxSamplePeriod ((l.filter (fun r => between a b r.1)).map Prod.fst) runs ∧
    ¬ (goesOn = true ∧ b = some last.1 ∧ runs.getLast? = some [last.1]) ∧ spans = goodSpans goesOn (b.getD last.1) runs

open Classical in
/-- C117. The proportion of energy of a meter: its energy in the good sections of the mains (of the first of them), over that of
all mains in these sections, whatever the AC types, the windows and the chunk size. It is NaN if the mains used nothing, or if one of
them has no two readings in any of these sections. -/
theorem C117_proportion_partial (self : StoredMeter) (ac : String) (l k : List (Int × Rat)) (hself : StoredAs self ac l k)
    (m : StoredMeter) (rest : List StoredMeter) (acM : String) (lm : List (Int × Rat)) (K : StoredMeter → List (Int × Rat))
    (hm : StoredAs m acM lm (K m)) (hrest : ∀ q ∈ rest, ∃ lq, StoredAs q acM lq (K q)) (a b : Option Int)
    (spans : List ((Int × Int) × Bool)) (hsp : MainsSpans m lm a b spans) (cs : Int) (hcs : 0 < cs) (E : Rat)
    (hE : E = ((m :: rest).map (fun q => spanKwh q.seconds spans (K q))).sum) :
    storedProportion self (m :: rest) (mk' a b) cs =
      .ok (if (∀ q ∈ m :: rest, SpanData spans (K q)) ∧ E ≠ 0 then .num (spanKwh self.seconds spans k / E) else .nan) := by
  obtain ⟨hmsp, h2, last, goesOn, runs, hlast, hgo, hruns, hv, hspans⟩ := hsp
  obtain ⟨g1, g2⟩ := good_spans m.maxSamplePeriod hmsp acM lm hm.2.2.1 a b cs hcs _ rfl h2 last hlast goesOn hgo runs hruns hv
  rw [← hspans] at g1 g2
  have hall : ∀ q ∈ m :: rest, ∃ lq, StoredAs q acM lq (K q) := by
    intro q hq
    rcases List.mem_cons.1 hq with rfl | hq
    · exact ⟨lm, hm⟩
    · exact hrest q hq
  have hmap : mapE (fun q => StoredMeter.energyIn q (mk' a b) (spans.map spanFrame) cs) (m :: rest) =
      .ok ((m :: rest).map (fun q => spanSeries acM spans q.seconds (K q))) := by
    rw [mapE_ok, List.forall₂_map_right_iff, List.forall₂_same]
    intro q hq
    obtain ⟨lq, h⟩ := hall q hq
    exact energyIn_spans q acM lq (K q) h a b spans g2 cs hcs
  obtain ⟨r, r1, r2, r3⟩ := group_in_spans acM spans StoredMeter.seconds K m rest
  unfold storedProportion firstGoodSections groupEnergyIn
  simp only [hm.1, g1, hmap, r1]
  by_cases hd : ∀ q ∈ m :: rest, SpanData spans (K q)
  · have hr := r2 hd
    rw [← hE] at hr
    have hsum : energySum r = E := by rw [hr]; simp [energySum]
    by_cases h0 : E = 0
    · rw [if_pos (by rw [hsum]; exact h0), if_neg (by simp [h0])]
    · rw [if_neg (by rw [hsum]; exact h0), if_pos ⟨hd, h0⟩, energyIn_spans self ac l k hself a b spans g2 cs hcs]
      simp only
      by_cases hs : SpanData spans k
      · have hser : spanSeries ac spans self.seconds k = [(ac, some (spanKwh self.seconds spans k))] := by
          unfold spanSeries
          rw [if_pos hs]
        rw [hser]
        have hsum' : energySum r ≠ 0 := by rw [hsum]; exact h0
        by_cases hac : ac = acM
        · subst hac
          have := C79_proportion [(ac, some (spanKwh self.seconds spans k))] r (fun _ => spanKwh self.seconds spans k) (fun _ => E)
            hsum' ⟨ac, by simp [types], by rw [hr]; simp [types]⟩ (by
              intro c hc _
              simp only [types, List.map_cons, List.map_nil, List.mem_singleton] at hc
              subst hc
              rw [hr]
              simp [Measured, h0])
          rw [this, hr]
          simp [sharedTypes]
        · have hbest : ∀ c : String, c = "active" ∨ c = "apparent" ∨ c = "reactive" → selectBestAcType [c] none = .ok (c, false) := by
            rintro c (rfl | rfl | rfl) <;> decide
          exact C79_unshared _ r ac acM false false _ E hsum' (by
            intro c hc hc'
            rw [hr] at hc'
            simp only [types, List.map_cons, List.map_nil, List.mem_singleton] at hc hc'
            exact hac (hc.symm.trans hc')) (hbest ac hself.2.1) (by rw [hr]; exact hbest acM hm.2.1) (by simp [Measured])
            (by rw [hr]; simp [Measured]) h0
      · have hser : spanSeries ac spans self.seconds k = [] := by
          unfold spanSeries
          rw [if_neg hs]
        rw [hser, (C79_nothing [] r).2 (by rw [hsum]; exact h0), spanKwh_none _ _ _ hs, zero_div]
  · rw [if_pos (r3 hd), if_neg (fun h => hd h.1)]

theorem submetered_loop (mains : List StoredMeter) (window : TF) (cs : Int) (v : StoredMeter → Rat) (ms : List StoredMeter)
    (h : ∀ m ∈ ms, storedProportion m mains window cs = .ok (.num (v m))) (x : Rat) (allNan : Bool) :
    storedSubmeteredLoop mains window cs (.num x) allNan ms =
      .ok (if allNan = true ∧ ms = [] then .nan else .num (x + (ms.map v).sum)) := by
  induction ms generalizing x allNan with
  | nil => cases allNan <;> simp [storedSubmeteredLoop]
  | cons m ms ih =>
    unfold storedSubmeteredLoop
    rw [h m (by simp)]
    simp only [FVal.add]
    rw [ih (fun q hq => h q (by simp [hq]))]
    simp [add_assoc]

/-- C117. The proportion of energy submetered: the energy of the meters directly downstream in the good sections of the mains (of the
first of them), over that of all mains. It is NaN without such meters, if the mains used nothing, or if one of the mains has no two
readings in any of these sections. -/
theorem C117_submetered_partial (down : List StoredMeter) (D : StoredMeter → List (Int × Rat))
    (hdown : ∀ d ∈ down, ∃ ac l, StoredAs d ac l (D d))
    (m : StoredMeter) (rest : List StoredMeter) (acM : String) (lm : List (Int × Rat)) (K : StoredMeter → List (Int × Rat))
    (hm : StoredAs m acM lm (K m)) (hrest : ∀ q ∈ rest, ∃ lq, StoredAs q acM lq (K q)) (a b : Option Int)
    (spans : List ((Int × Int) × Bool)) (hsp : MainsSpans m lm a b spans) (cs : Int) (hcs : 0 < cs) (E : Rat)
    (hE : E = ((m :: rest).map (fun q => spanKwh q.seconds spans (K q))).sum) :
    (((∀ q ∈ m :: rest, SpanData spans (K q)) ∧ E ≠ 0 ∧ down ≠ []) →
      storedSubmetered (m :: rest) down (mk' a b) cs =
        .ok (.num ((down.map (fun d => spanKwh d.seconds spans (D d))).sum / E))) ∧
    (¬ ((∀ q ∈ m :: rest, SpanData spans (K q)) ∧ E ≠ 0 ∧ down ≠ []) →
      storedSubmetered (m :: rest) down (mk' a b) cs = .ok .nan) := by
  classical
  have hp : ∀ d ∈ down, storedProportion d (m :: rest) (mk' a b) cs = .ok (if (∀ q ∈ m :: rest, SpanData spans (K q)) ∧ E ≠ 0 then
      .num (spanKwh d.seconds spans (D d) / E) else .nan) := by
    intro d hd
    obtain ⟨ac, l, h⟩ := hdown d hd
    exact C117_proportion_partial d ac l (D d) h m rest acM lm K hm hrest a b spans hsp cs hcs E hE
  constructor
  · rintro ⟨h1, h2, h3⟩
    unfold storedSubmetered
    rw [submetered_loop (m :: rest) (mk' a b) cs (fun d => spanKwh d.seconds spans (D d) / E) down (by
      intro d hd
      rw [hp d hd, if_pos ⟨h1, h2⟩]), if_neg (fun h => h3 h.2), zero_add]
    congr 2
    clear hp hdown h3
    induction down with
    | nil => simp
    | cons d down ih => rw [List.map_cons, List.sum_cons, ih, List.map_cons, List.sum_cons, add_div]
  · intro h
    unfold storedSubmetered
    have hnan : ∀ d ∈ down, storedProportion d (m :: rest) (mk' a b) cs = .ok .nan := by
      intro d hd
      rw [hp d hd, if_neg]
      rintro ⟨h1, h2⟩
      exact h ⟨h1, h2, List.ne_nil_of_mem hd⟩
    clear hp hdown h
    generalize (FVal.num 0 : FVal Rat) = acc
    induction down with
    | nil => rfl
    | cons d down ih =>
      unfold storedSubmeteredLoop
      rw [hnan d (by simp)]
      exact ih (fun q hq => hnan q (by simp [hq]))

/-! ### Meters read at the same times -/

/-- The energy of values at given times. -/
theorem kwhOf_values (msp : Rat) (ts : List Int) (w : Int → Rat) :
    kwhOf msp (ts.map (fun t => (t, w t))) = ((ts.zip ts.tail).map (fun p => min (((p.2 - p.1 : Int) : Rat) / 1000000000) msp * w p.1)).sum / 3600000 := by
  induction ts with
  | nil => simp [kwhOf]
  | cons x ts ih =>
    cases ts with
    | nil => simp [kwhOf]
    | cons y ts =>
      simp only [List.map_cons] at ih ⊢
      rw [kwhOf_cons, ih]
      simp only [List.tail_cons, List.zip_cons_cons, List.map_cons, List.sum_cons]
      ring

theorem spanKwh_values (msp : Rat) (spans : List ((Int × Int) × Bool)) (ts : List Int) (w : Int → Rat) :
    spanKwh msp spans (ts.map (fun t => (t, w t))) =
      (spans.map (fun s => kwhOf msp ((ts.filter (inSpan s)).map (fun t => (t, w t))))).sum := by
  unfold spanKwh
  congr 1
  apply List.map_congr_left
  intro s _
  rw [List.filter_map]
  rfl

theorem spanKwh_add (msp : Rat) (spans : List ((Int × Int) × Bool)) (ts : List Int) (w u : Int → Rat) :
    spanKwh msp spans (ts.map (fun t => (t, w t + u t))) =
      spanKwh msp spans (ts.map (fun t => (t, w t))) + spanKwh msp spans (ts.map (fun t => (t, u t))) := by
  rw [spanKwh_values, spanKwh_values, spanKwh_values, ← List.sum_map_add]
  congr 1
  apply List.map_congr_left
  intro s _
  rw [kwhOf_values, kwhOf_values, kwhOf_values, ← add_div, ← List.sum_map_add]
  congr 3
  funext p
  ring

theorem spanKwh_zero (msp : Rat) (spans : List ((Int × Int) × Bool)) (ts : List Int) :
    spanKwh msp spans (ts.map (fun t => (t, 0))) = 0 := by
  rw [spanKwh_values]
  apply List.sum_eq_zero
  intro x hx
  obtain ⟨s, _, rfl⟩ := List.mem_map.1 hx
  rw [kwhOf_values msp _ (fun _ => 0)]
  simp

theorem spanKwh_sum {β : Type} (msp : Rat) (spans : List ((Int × Int) × Bool)) (ts : List Int) (w : β → Int → Rat) (ms : List β) :
    (ms.map (fun m => spanKwh msp spans (ts.map (fun t => (t, w m t))))).sum =
      spanKwh msp spans (ts.map (fun t => (t, (ms.map (fun m => w m t)).sum))) := by
  induction ms with
  | nil => simp [spanKwh_zero]
  | cons m ms ih =>
    rw [List.map_cons, List.sum_cons, ih]
    simp only [List.map_cons, List.sum_cons]
    rw [spanKwh_add msp spans ts (w m) (fun t => (ms.map (fun m => w m t)).sum)]

theorem spanKwh_smul (msp : Rat) (spans : List ((Int × Int) × Bool)) (ts : List Int) (w : Int → Rat) (c : Rat) :
    spanKwh msp spans (ts.map (fun t => (t, c * w t))) = c * spanKwh msp spans (ts.map (fun t => (t, w t))) := by
  rw [spanKwh_values msp spans ts (fun t => c * w t), spanKwh_values, ← List.sum_map_mul_left]
  congr 1
  apply List.map_congr_left
  intro s _
  rw [kwhOf_values msp _ (fun t => c * w t), kwhOf_values, mul_div_assoc', ← List.sum_map_mul_left]
  congr 3
  funext p
  ring

theorem spanKwh_mono (msp : Rat) (hmsp : 0 ≤ msp) (spans : List ((Int × Int) × Bool)) (ts : List Int) (hts : ts.Pairwise (· < ·))
    (w u : Int → Rat) (h : ∀ t ∈ ts, w t ≤ u t) :
    spanKwh msp spans (ts.map (fun t => (t, w t))) ≤ spanKwh msp spans (ts.map (fun t => (t, u t))) := by
  have key : ∀ k : List Int, k.Pairwise (· < ·) → (∀ t ∈ k, w t ≤ u t) →
      kwhOf msp (k.map (fun t => (t, w t))) ≤ kwhOf msp (k.map (fun t => (t, u t))) := by
    intro k hk hwu
    induction k with
    | nil => simp
    | cons x k ih =>
      cases k with
      | nil => simp [kwhOf]
      | cons y k =>
        have i1 := ih (List.pairwise_cons.1 hk).2 (fun t ht => hwu t (by simp [ht]))
        have hxy : x < y := (List.pairwise_cons.1 hk).1 y (by simp)
        have hpos : 0 ≤ min (((y - x : Int) : Rat) / 1000000000) msp := by
          apply le_min
          · have : (0 : Rat) ≤ ((y - x : Int) : Rat) := by exact_mod_cast (by omega : 0 ≤ y - x)
            positivity
          · exact hmsp
        simp only [List.map_cons] at i1 ⊢
        rw [kwhOf_cons, kwhOf_cons]
        have := hwu x (by simp)
        simp only
        gcongr
  rw [spanKwh_values, spanKwh_values]
  apply List.sum_le_sum
  intro s _
  exact key _ (hts.filter _) (fun t ht => h t (List.mem_of_mem_filter ht))

/-- C117. Meters read at the same times as the one meter of the mains, with the same `max_sample_period`, whose powers always add up
to `c` times that of the mains: the proportion submetered is `c`, if the mains used anything. In particular it is one if the meters
account for all the power. -/
theorem C117_accounted (down : List StoredMeter) (ts : List Int) (w : StoredMeter → Int → Rat) (c : Rat)
    (hdown : ∀ d ∈ down, ∃ ac l, StoredAs d ac l (ts.map (fun t => (t, w d t))))
    (m : StoredMeter) (acM : String) (lm : List (Int × Rat)) (hm : StoredAs m acM lm (ts.map (fun t => (t, w m t))))
    (hmsp : ∀ d ∈ down, d.maxSamplePeriod = m.maxSamplePeriod) (a b : Option Int)
    (spans : List ((Int × Int) × Bool)) (hsp : MainsSpans m lm a b spans) (hne : down ≠ [])
    (hadd : ∀ t ∈ ts, (down.map (fun d => w d t)).sum = c * w m t)
    (hE : spanKwh m.seconds spans (ts.map (fun t => (t, w m t))) ≠ 0) (cs : Int) (hcs : 0 < cs) :
    storedSubmetered [m] down (mk' a b) cs = .ok (.num c) := by
  have hd : SpanData spans (ts.map (fun t => (t, w m t))) := by
    by_contra h
    exact hE (spanKwh_none _ _ _ h)
  rw [(C117_submetered_partial down (fun d => ts.map (fun t => (t, w d t))) hdown m [] acM lm (fun d => ts.map (fun t => (t, w d t)))
    hm (by simp) a b spans hsp cs hcs _ rfl).1 ⟨by simpa using hd, by simpa using hE, hne⟩]
  congr 2
  simp only [List.map_cons, List.map_nil, List.sum_cons, List.sum_nil, add_zero]
  rw [div_eq_iff hE, ← spanKwh_smul m.seconds spans ts (w m) c]
  have h1 : down.map (fun d => spanKwh d.seconds spans (ts.map (fun t => (t, w d t)))) =
      down.map (fun d => spanKwh m.seconds spans (ts.map (fun t => (t, w d t)))) := by
    apply List.map_congr_left
    intro d hd'
    unfold StoredMeter.seconds
    rw [hmsp d hd']
  rw [h1, spanKwh_sum]
  congr 1
  apply List.map_congr_left
  intro t ht
  rw [hadd t ht]

/-- C117. For meters read at the same times as the one meter of the mains, with the same `max_sample_period`, whose powers are not
negative and never add up to more than that of the mains, the proportion submetered is between zero and one, if the mains used
anything. -/
theorem C117_range (down : List StoredMeter) (ts : List Int) (w : StoredMeter → Int → Rat)
    (hdown : ∀ d ∈ down, ∃ ac l, StoredAs d ac l (ts.map (fun t => (t, w d t))))
    (m : StoredMeter) (acM : String) (lm : List (Int × Rat)) (hm : StoredAs m acM lm (ts.map (fun t => (t, w m t))))
    (hmsp : ∀ d ∈ down, d.maxSamplePeriod = m.maxSamplePeriod) (a b : Option Int)
    (spans : List ((Int × Int) × Bool)) (hsp : MainsSpans m lm a b spans) (hne : down ≠ [])
    (hpos : ∀ t ∈ ts, ∀ d ∈ down, 0 ≤ w d t) (hadd : ∀ t ∈ ts, (down.map (fun d => w d t)).sum ≤ w m t)
    (hE : spanKwh m.seconds spans (ts.map (fun t => (t, w m t))) ≠ 0) (cs : Int) (hcs : 0 < cs) :
    ∃ q, storedSubmetered [m] down (mk' a b) cs = .ok (.num q) ∧ 0 ≤ q ∧ q ≤ 1 := by
  have hd : SpanData spans (ts.map (fun t => (t, w m t))) := by
    by_contra h
    exact hE (spanKwh_none _ _ _ h)
  have hts : ts.Pairwise (· < ·) := by
    obtain ⟨_, _, h1, f, _, h2⟩ := hm
    have h3 := congrArg (List.map Prod.fst) h2
    rw [List.map_map, List.map_map] at h3
    have h4 : ts = lm.map Prod.fst := by
      have : (Prod.fst ∘ fun t : Int => (t, w m t)) = id := rfl
      rw [this, List.map_id] at h3
      exact h3
    rw [h4, List.pairwise_map]
    exact h1
  refine ⟨_, (C117_submetered_partial down (fun d => ts.map (fun t => (t, w d t))) hdown m [] acM lm
    (fun d => ts.map (fun t => (t, w d t))) hm (by simp) a b spans hsp cs hcs _ rfl).1 ⟨by simpa using hd, by simpa using hE, hne⟩, ?_⟩
  simp only [List.map_cons, List.map_nil, List.sum_cons, List.sum_nil, add_zero]
  have h1 : down.map (fun d => spanKwh d.seconds spans (ts.map (fun t => (t, w d t)))) =
      down.map (fun d => spanKwh m.seconds spans (ts.map (fun t => (t, w d t)))) := by
    apply List.map_congr_left
    intro d hd'
    unfold StoredMeter.seconds
    rw [hmsp d hd']
  have hsec : 0 ≤ m.seconds := by
    have : (0 : Rat) ≤ (m.maxSamplePeriod : Rat) := by exact_mod_cast hsp.nonneg
    unfold StoredMeter.seconds
    positivity
  have hsum0 : ∀ t ∈ ts, 0 ≤ (down.map (fun d => w d t)).sum := by
    intro t ht
    apply List.sum_nonneg
    intro x hx
    obtain ⟨d, hd', rfl⟩ := List.mem_map.1 hx
    exact hpos t ht d hd'
  rw [h1, spanKwh_sum]
  have hlow := spanKwh_mono m.seconds hsec spans ts hts (fun _ => 0) (fun t => (down.map (fun d => w d t)).sum) hsum0
  have hup := spanKwh_mono m.seconds hsec spans ts hts (fun t => (down.map (fun d => w d t)).sum) (w m) hadd
  rw [spanKwh_zero] at hlow
  have hEpos : 0 < spanKwh m.seconds spans (ts.map (fun t => (t, w m t))) := lt_of_le_of_ne (le_trans hlow hup) (Ne.symm hE)
  exact ⟨div_nonneg hlow (le_of_lt hEpos), (div_le_one hEpos).2 hup⟩

/-! ### From the files -/

/-- The meter of a channel after converting REDD. -/
def reddMeter (sort : List (Int × Option Rat) → List (Int × Option Rat)) (tree : RawTree (Option Rat)) (house : Nat)
    (ms : Nat → List Measurement) (msp : Nat → Int) (chan : Nat) : StoredMeter :=
  ⟨(convertRedd sort (some tree)).1 (meterKey house chan), ms chan, msp chan⟩

/-- The readings of a channel in the order of time, in nanoseconds, limited by `f`. -/
def reddReadings (order : List (Int × Rat)) (f : Rat → Rat) : List (Int × Rat) := order.map (fun r => (r.1 * 1000000000, f r.2))

theorem redd_stored {sort : List (Int × Option Rat) → List (Int × Option Rat)} (hs : SortsByTime sort)
    {tree : RawTree (Option Rat)} (hx : ExpectedTree tree) (house chan : Nat) (hh : house ≤ 9) (hc : chan ≤ 99)
    (file order : List (Int × Rat)) (hf : ChannelFile tree house chan (asFile file)) (hp : order.Perm file)
    (hord : order.Pairwise (fun x y => x.1 < y.1)) (ac : String)
    (hac : ac = if chan = 1 ∨ chan = 2 then "apparent" else "active") (ms : Nat → List Measurement) (msp : Nat → Int)
    (f : Rat → Rat) (hlim : LimitedBy (ms chan) ("power", ac) f) :
    StoredAs (reddMeter sort tree house ms msp chan) ac (reddReadings order id) (reddReadings order f) := by
  refine ⟨?_, ?_, scaled_increasing order hord, f, hlim, ?_⟩
  · rw [hac]
    exact redd_table hs hx house chan hh hc file order hf hp hord
  · rw [hac]; split <;> simp
  · unfold reddReadings
    rw [List.map_map]
    rfl

/-- C117. From the files to the proportion submetered: after converting REDD, with the channels 1 and 2 as mains and other channels
directly downstream of them, the proportion of energy submetered is the energy of the readings in the files of these channels in the
good sections of channel 1, over that of the channels 1 and 2, whatever the order of the lines and the chunk size: here the meters
measure active and the mains apparent power. -/
theorem C117_redd_partial {sort : List (Int × Option Rat) → List (Int × Option Rat)} (hs : SortsByTime sort)
    {tree : RawTree (Option Rat)} (hx : ExpectedTree tree) (house : Nat) (hh : house ≤ 9) (chans : List Nat)
    (hch : ∀ c ∈ chans, 3 ≤ c ∧ c ≤ 99) (hne : chans ≠ []) (file order : Nat → List (Int × Rat))
    (hf : ∀ c ∈ 1 :: 2 :: chans, ChannelFile tree house c (asFile (file c)) ∧ (order c).Perm (file c) ∧
      (order c).Pairwise (fun x y => x.1 < y.1))
    (ms : Nat → List Measurement) (msp : Nat → Int) (f : Nat → Rat → Rat)
    (hlim : ∀ c ∈ 1 :: 2 :: chans, LimitedBy (ms c) ("power", if c = 1 ∨ c = 2 then "apparent" else "active") (f c))
    (meter : Nat → StoredMeter) (hmeter : meter = reddMeter sort tree house ms msp)
    (reading : Nat → List (Int × Rat)) (hread : ∀ c, reading c = reddReadings (order c) (f c))
    (a b : Option Int) (spans : List ((Int × Int) × Bool)) (hsp : MainsSpans (meter 1) (reddReadings (order 1) id) a b spans)
    (energy : Nat → Rat) (hen : ∀ c, energy c = spanKwh ((msp c : Rat) / 1000000000) spans (reading c)) (cs : Int) (hcs : 0 < cs) :
    storedSubmetered [meter 1, meter 2] (chans.map meter) (mk' a b) cs =
      .ok (@ite _ (SpanData spans (reading 1) ∧ SpanData spans (reading 2) ∧ energy 1 + energy 2 ≠ 0) (Classical.propDecidable _)
        (.num ((chans.map energy).sum / (energy 1 + energy 2))) .nan) := by
  have hst : ∀ c ∈ 1 :: 2 :: chans, StoredAs (meter c) (if c = 1 ∨ c = 2 then "apparent" else "active")
      (reddReadings (order c) id) (reading c) := by
    intro c hc
    have hc99 : c ≤ 99 := by
      rcases List.mem_cons.1 hc with rfl | hc'
      · omega
      · rcases List.mem_cons.1 hc' with rfl | hc'
        · omega
        · exact (hch c hc').2
    obtain ⟨h1, h2, h3⟩ := hf c hc
    rw [hmeter, hread]
    exact redd_stored hs hx house c hh hc99 (file c) (order c) h1 h2 h3 _ rfl ms msp (f c) (hlim c hc)
  have hsec : ∀ c, (meter c).seconds = (msp c : Rat) / 1000000000 := by intro c; rw [hmeter]; rfl
  have hp : ∀ c ∈ chans, storedProportion (meter c) [meter 1, meter 2] (mk' a b) cs =
      .ok (@ite _ (SpanData spans (reading 1) ∧ SpanData spans (reading 2) ∧ energy 1 + energy 2 ≠ 0) (Classical.propDecidable _)
        (.num (energy c / (energy 1 + energy 2))) .nan) := by
    intro c hc
    -- the readings of the two mains as a function of the meter
    classical
    by_cases heq : meter 1 = meter 2
    · have hcommon : reading 1 = reading 2 ∨ reading 1 ≠ reading 2 := Classical.em _
      have h1 := hst 1 (by simp)
      have h2 := hst 2 (by simp)
      rw [if_pos (.inl rfl)] at h1
      rw [if_pos (.inr rfl)] at h2
      have hsame : reading 1 = reading 2 := by
        obtain ⟨t1, _, _, g1, l1, k1⟩ := h1
        obtain ⟨t2, _, _, g2, l2, k2⟩ := h2
        rw [heq, t2] at t1
        have ht : reddReadings (order 2) id = reddReadings (order 1) id := by
          have := congrArg RawTable.rows (Option.some.inj t1)
          simp only [asTable] at this
          have hinj : Function.Injective (fun r : Int × Rat => (r.1, some r.2)) := by
            rintro ⟨x, y⟩ ⟨z, w⟩ h
            simpa using h
          exact hinj.list_map this
        rw [heq] at l1
        have hg : ∀ v, g1 v = g2 v := by
          obtain ⟨e1, _, _⟩ := clipOne_limited _ _ _ l1
          obtain ⟨e2, _, _⟩ := clipOne_limited _ _ _ l2
          intro v
          have := (e1 v).symm.trans (e2 v)
          simpa using this
        rw [k1, k2, ht]
        apply List.map_congr_left
        intro r _
        rw [hg]
      have := C117_proportion_partial (meter c) _ _ _ (hst c (by simp [hc])) (meter 1) [meter 2] "apparent" _ (fun _ => reading 1)
        h1 (by
          intro q hq
          simp only [List.mem_singleton] at hq
          subst hq
          exact ⟨_, hsame ▸ h2⟩) a b spans hsp cs hcs _ rfl
      rw [this]
      simp only [List.map_cons, List.map_nil, List.sum_cons, List.sum_nil, add_zero, hsec, List.forall_mem_cons, List.not_mem_nil,
        false_implies, implies_true, and_true, hen, ← hsame, and_assoc]
    · have h1 := hst 1 (by simp)
      have h2 := hst 2 (by simp)
      rw [if_pos (.inl rfl)] at h1
      rw [if_pos (.inr rfl)] at h2
      have := C117_proportion_partial (meter c) _ _ _ (hst c (by simp [hc])) (meter 1) [meter 2] "apparent" _
        (fun q => if q = meter 1 then reading 1 else reading 2) (by simpa using h1) (by
          intro q hq
          simp only [List.mem_singleton] at hq
          subst hq
          refine ⟨reddReadings (order 2) id, ?_⟩
          simp only [if_neg (Ne.symm heq)]
          exact h2) a b spans hsp cs hcs _ rfl
      rw [this]
      simp only [List.map_cons, List.map_nil, List.sum_cons, List.sum_nil, add_zero, hsec, List.forall_mem_cons, List.not_mem_nil,
        false_implies, implies_true, and_true, hen, and_assoc, if_true, if_neg (Ne.symm heq)]
  have loop : ∀ (l : List Nat), (∀ c ∈ l, c ∈ chans) → ∀ (x : Rat) (allNan : Bool),
      storedSubmeteredLoop [meter 1, meter 2] (mk' a b) cs (.num x) allNan (l.map meter) =
      .ok (@ite _ (SpanData spans (reading 1) ∧ SpanData spans (reading 2) ∧ energy 1 + energy 2 ≠ 0) (Classical.propDecidable _)
        (if allNan = true ∧ l = [] then .nan else .num (x + (l.map energy).sum / (energy 1 + energy 2)))
        (if allNan = true then .nan else .num x)) := by
    intro l hl
    induction l with
    | nil =>
      intro x allNan
      split <;> cases allNan <;> simp [storedSubmeteredLoop]
    | cons c l ih =>
      intro x allNan
      rw [List.map_cons]
      unfold storedSubmeteredLoop
      rw [hp c (hl c (by simp))]
      have ih' := ih (fun d hd => hl d (by simp [hd]))
      by_cases h : SpanData spans (reading 1) ∧ SpanData spans (reading 2) ∧ energy 1 + energy 2 ≠ 0
      · simp only [if_pos h] at ih' ⊢
        simp only [FVal.add, ih']
        simp only [Bool.false_eq_true, false_and, if_false, List.cons_ne_nil, and_false, List.map_cons, List.sum_cons, add_div, add_assoc]
      · simp only [if_neg h] at ih' ⊢
        exact ih' x allNan
  unfold storedSubmetered
  rw [loop chans (fun c hc => hc) 0 true]
  simp only [true_and, if_neg hne, zero_add, if_true]

/-! ### Errors -/

/-- C117. A meter, or mains, without a table is a `KeyError`; no mains are an `AttributeError`. If the mains used nothing the result
is NaN, even if the meter has no table. -/
theorem C117_errors (self m : StoredMeter) (rest : List StoredMeter) (w : TF) (cs : Int) :
    storedProportion self [] w cs = .error .attributeError ∧
    (m.table = none → storedProportion self (m :: rest) w cs = .error .keyError) ∧
    (∀ secs e, self.table = none → firstGoodSections (m :: rest) w cs = .ok secs → groupEnergyIn (m :: rest) w secs cs = .ok (some e) →
      storedProportion self (m :: rest) w cs = if energySum e = 0 then .ok .nan else .error .keyError) := by
  refine ⟨rfl, ?_, ?_⟩
  · intro h
    unfold storedProportion firstGoodSections
    simp only [h, meterGoodSections]
  · intro secs e h h1 h2
    unfold storedProportion
    simp only [h1, h2]
    split
    · rfl
    · unfold StoredMeter.energyIn
      rw [h]
      rfl

/-! ### Counterexamples and examples -/

/-- Readings of active power limited as those of `exMeasures`, with `max_sample_period` of `n` seconds. -/
def exStored (n : Int) (l : List (Int × Rat)) : StoredMeter := ⟨some (asTable "active" l), exMeasures, n * 1000000000⟩

/-- C117, negation: the only load of a home, constant, read by the mains every ten seconds and by its own meter every five, has a
proportion of more than one: the last reading of a good section of the mains, but not the last readings of the meter, is left out. -/
theorem C117_sampling_counterexample :
    let mains := exStored 10 [(0, 100), (10000000000, 100), (20000000000, 100), (100000000000, 100), (110000000000, 100)]
    let load := exStored 10 [(0, 100), (5000000000, 100), (10000000000, 100), (15000000000, 100), (20000000000, 100),
      (100000000000, 100), (105000000000, 100), (110000000000, 100)]
    storedProportion load [mains] TF.blank 100 = .ok (.num (5 / 4)) := by
  decide +kernel

/-- C117, negation: the second meter of the mains has no readings in the good sections of the first, and the proportion submetered is
NaN although the first one measured everything. -/
theorem C117_dead_phase_counterexample :
    let first := exStored 10 [(0, 100), (10000000000, 100), (20000000000, 100)]
    let second := exStored 10 [(100000000000, 0), (110000000000, 0), (120000000000, 0)]
    storedSubmetered [first, second] [first] TF.blank 100 = .ok .nan ∧
    storedSubmetered [first] [first] TF.blank 100 = .ok (.num 1) := by
  refine ⟨?_, ?_⟩ <;> decide +kernel

theorem exStored_as (n : Int) (l : List (Int × Rat)) (hl : l.Pairwise (fun x y => x.1 < y.1)) (hv : ∀ r ∈ l, 0 ≤ r.2 ∧ r.2 ≤ 10000000) :
    StoredAs (exStored n l) "active" l l := by
  refine ⟨rfl, .inl rfl, hl, _, exMeasures_limited, ?_⟩
  symm
  rw [List.map_congr_left (g := id)]
  · simp
  · rintro ⟨t, v⟩ hr
    obtain ⟨h1, h2⟩ := hv _ hr
    simp only at h1 h2
    simp [min_eq_left h2, h1]

/-- The hypotheses can be met: two good sections, two mains. -/
example : MainsSpans (exStored 10 [(0, 100), (10000000000, 100), (20000000000, 100), (100000000000, 100), (110000000000, 100)])
    [(0, 100), (10000000000, 100), (20000000000, 100), (100000000000, 100), (110000000000, 100)] none none
    [((0, 20000000000), false), ((100000000000, 110000000000), true)] := by
  refine ⟨by decide, by decide, (110000000000, 100), false, [[0, 10000000000, 20000000000], [100000000000, 110000000000]], by decide,
    ?_, ?_, by simp, by decide⟩
  · simp
  · refine .cons [0, 10000000000, 20000000000] 20000000000 100000000000 [110000000000] _ ?_ rfl ?_ ?_
    · simp [GapFree, exStored]
    · simp [exStored]
    · exact .single _ (by simp) (by simp [GapFree, exStored])
example : storedSubmetered [exStored 10 [(0, 100), (10000000000, 100), (20000000000, 100), (100000000000, 100), (110000000000, 100)],
    exStored 10 [(0, 300), (10000000000, 300), (20000000000, 300), (100000000000, 300), (110000000000, 300)]]
    [exStored 10 [(0, 200), (10000000000, 200), (20000000000, 200), (100000000000, 200), (110000000000, 200)],
      exStored 10 [(0, 100), (10000000000, 100)], exStored 10 [(30000000000, 100), (40000000000, 100)]]
    TF.blank 100 = .ok (.num (5 / 8)) := by decide +kernel

/-- A small home with two mains and one meter. -/
def homeTree : RawTree (Option Rat) :=
  [("house_1".toList, some [("channel_1.dat".toList, some [(10, some 100), (0, some 100), (20, some 100)]),
    ("channel_2.dat".toList, some [(0, some 300), (10, some 300), (20, some 300)]),
    ("channel_3.dat".toList, some [(20, some 7), (0, some 100), (10, some 100)])])]

theorem homeTree_expected : ExpectedTree homeTree := by
  refine ⟨⟨by decide +kernel, ?_⟩, ?_⟩
  · intro name files h
    simp only [homeTree, List.mem_cons, Prod.mk.injEq, Option.some.injEq, List.not_mem_nil, or_false] at h
    obtain ⟨rfl, rfl⟩ := h
    decide +kernel
  · intro name files h hp
    simp only [homeTree, List.mem_cons, Prod.mk.injEq, Option.some.injEq, List.not_mem_nil, or_false] at h
    obtain ⟨rfl, rfl⟩ := h
    refine ⟨⟨1, by decide, by decide, by decide +kernel⟩, ?_⟩
    intro file rows hf _
    simp only [List.mem_cons, Prod.mk.injEq, Option.some.injEq, List.not_mem_nil, or_false] at hf
    rcases hf with ⟨rfl, rfl⟩ | ⟨rfl, rfl⟩ | ⟨rfl, rfl⟩
    · exact ⟨by simp, 1, by decide, by decide, by decide +kernel⟩
    · exact ⟨by simp, 2, by decide, by decide, by decide +kernel⟩
    · exact ⟨by simp, 3, by decide, by decide, by decide +kernel⟩

/-- The lines of its files, and the measurements of its meters, whose readings have no limits. -/
def homeFile : Nat → List (Int × Rat)
  | 1 => [(10, 100), (0, 100), (20, 100)]
  | 2 => [(0, 300), (10, 300), (20, 300)]
  | _ => [(20, 7), (0, 100), (10, 100)]

def homeOrder : Nat → List (Int × Rat)
  | 1 => [(0, 100), (10, 100), (20, 100)]
  | 2 => [(0, 300), (10, 300), (20, 300)]
  | _ => [(0, 100), (10, 100), (20, 7)]

def homeMeasures (c : Nat) : List Measurement := [⟨"power", some (if c = 1 ∨ c = 2 then "apparent" else "active"), none, none⟩]

/-- A quarter of the energy of the home is submetered. -/
example {sort : List (Int × Option Rat) → List (Int × Option Rat)} (hs : SortsByTime sort) (cs : Int) (hcs : 0 < cs) :
    storedSubmetered [reddMeter sort homeTree 1 homeMeasures (fun _ => 10000000000) 1,
        reddMeter sort homeTree 1 homeMeasures (fun _ => 10000000000) 2]
      ([3].map (reddMeter sort homeTree 1 homeMeasures (fun _ => 10000000000))) (mk' none none) cs = .ok (.num (1 / 4)) := by
  have hfile : ∀ c ∈ [1, 2, 3], ChannelFile homeTree 1 c (asFile (homeFile c)) ∧ (homeOrder c).Perm (homeFile c) ∧
      (homeOrder c).Pairwise (fun x y => x.1 < y.1) := by
    intro c hc
    simp only [List.mem_cons, List.not_mem_nil, or_false] at hc
    rcases hc with rfl | rfl | rfl
    · exact ⟨⟨[("channel_1.dat".toList, some [(10, some 100), (0, some 100), (20, some 100)]),
        ("channel_2.dat".toList, some [(0, some 300), (10, some 300), (20, some 300)]),
        ("channel_3.dat".toList, some [(20, some 7), (0, some 100), (10, some 100)])],
        by decide +kernel, by decide +kernel⟩, by decide +kernel, by decide +kernel⟩
    · exact ⟨⟨[("channel_1.dat".toList, some [(10, some 100), (0, some 100), (20, some 100)]),
        ("channel_2.dat".toList, some [(0, some 300), (10, some 300), (20, some 300)]),
        ("channel_3.dat".toList, some [(20, some 7), (0, some 100), (10, some 100)])],
        by decide +kernel, by decide +kernel⟩, by decide +kernel, by decide +kernel⟩
    · exact ⟨⟨[("channel_1.dat".toList, some [(10, some 100), (0, some 100), (20, some 100)]),
        ("channel_2.dat".toList, some [(0, some 300), (10, some 300), (20, some 300)]),
        ("channel_3.dat".toList, some [(20, some 7), (0, some 100), (10, some 100)])],
        by decide +kernel, by decide +kernel⟩, by decide +kernel, by decide +kernel⟩
  have hspans : MainsSpans (reddMeter sort homeTree 1 homeMeasures (fun _ => 10000000000) 1) (reddReadings (homeOrder 1) id) none none
      [((0, 20000000000), true)] := by
    refine ⟨?_, by decide +kernel, (20000000000, 100), false, [[0, 10000000000, 20000000000]], by decide +kernel, ?_, ?_, by simp,
      by decide +kernel⟩
    · show (0 : Int) ≤ 10000000000
      decide
    · show false = true ↔ ∃ q ∈ reddReadings (homeOrder 1) id, (20000000000 : Int) < q.1 ∧ q.1 - 20000000000 ≤ 10000000000
      have : reddReadings (homeOrder 1) id = [(0, 100), (10000000000, 100), (20000000000, 100)] := by decide +kernel
      rw [this]
      simp
    · have : ((reddReadings (homeOrder 1) id).filter (fun r => between none none r.1)).map Prod.fst =
          [0, 10000000000, 20000000000] := by decide +kernel
      rw [this]
      exact .single _ (by simp) (by
        show GapFree 10000000000 _
        simp [GapFree])
  rw [C117_redd_partial hs homeTree_expected 1 (by decide) [3] (by simp) (by simp) homeFile homeOrder hfile homeMeasures
    (fun _ => 10000000000) (fun _ v => v) (by
      intro c _
      exact ⟨[], _, [], rfl, by simp, rfl, rfl, .inr ⟨.inl rfl, fun _ => rfl⟩⟩) _ rfl _ (fun _ => rfl) none none _ hspans
    _ (fun _ => rfl) cs hcs]
  rw [if_pos]
  · congr 2
    decide +kernel
  · refine ⟨⟨_, List.mem_singleton.2 rfl, by decide +kernel⟩, ⟨_, List.mem_singleton.2 rfl, by decide +kernel⟩, by decide +kernel⟩

end Nilmtk
