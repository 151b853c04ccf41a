import Verif.Props.MeterEnergy
/-!
C112, continued: the energy of a meter in given sections, such as its good sections.
-/
namespace Nilmtk
open TF

/-! ### Specification -/

/-- In the section `s` (its end is not in it) and in the window from `a` to `b`, as far as given (its end is not in it). -/
def inSection (a b : Option Int) (s : Int × Int) (t : Int) : Bool :=
  decide (s.1 ≤ t) && decide (t < s.2) && a.all (fun x => decide (x ≤ t)) && b.all (fun y => decide (t < y))

/-- The sections as time frames. -/
def asSections (secs : List (Int × Int)) : List TF := secs.map (fun s => mk' (some s.1) (some s.2))

/-! ### Chunks with and without data -/

/-- What a chunk contributes: its bounds, and the energy if it has data. -/
structure IsPart (ms : List Measurement) (msp : Rat) (cols : List Col) (A : AC) (c : Chunk (Option Rat))
    (z : (Int × Int) × Option Rat) : Prop where
  start : c.timeframe.start = some z.1.1
  stop : c.timeframe.stop = some z.1.2
  some : c.timeframe.empty = false
  energy : chunkEnergy ms msp cols c.rows = .ok (z.2.toList.map (fun v => (A, Option.some v)))

/-- The row of it in the results. -/
def partRow (A : AC) (z : (Int × Int) × Option Rat) : RRow (AC → Option Rat) :=
  ⟨z.1.1, z.1.2, fun c => if c = A then z.2 else none⟩

theorem energyOfChunks_parts (ms : List Measurement) (msp : Rat) (cols : List Col) (A : AC) (hA : A ∈ acTypes)
    (out : List (Chunk (Option Rat))) (zs : List ((Int × Int) × Option Rat)) (h : List.Forall₂ (IsPart ms msp cols A) out zs)
    (hlt : ∀ z ∈ zs, z.1.1 < z.1.2) (hap : zs.Pairwise (fun c d => c.1.2 ≤ d.1.1 ∨ d.1.2 ≤ c.1.1)) (acc : TEResults)
    (hok : RowsOK acc.rows) (hcols : acc.cols = [] ∨ acc.cols = [A])
    (hfree : ∀ z ∈ zs, ∀ r ∈ acc.rows, r.stop ≤ z.1.1 ∨ z.1.2 ≤ r.start) :
    ∃ t, energyOfChunks ms msp cols acc out = .ok t ∧ RowsOK t.rows ∧ (t.cols = [] ∨ t.cols = [A]) ∧
      (t.cols = [A] ↔ acc.cols = [A] ∨ ∃ z ∈ zs, z.2 ≠ none) ∧ t.rows.Perm (zs.map (partRow A) ++ acc.rows) := by
  induction h generalizing acc with
  | nil => exact ⟨acc, rfl, hok, hcols, by simp, List.Perm.refl _⟩
  | @cons c z out zs h1 h2 ih =>
    obtain ⟨rows', e1, e2, e3⟩ := (C28_append acc.rows hok c.timeframe z.1.1 z.1.2 h1.start h1.stop h1.some
      (hlt z List.mem_cons_self) (partRow A z).val).1 (hfree z List.mem_cons_self)
    have hval : (fun c => ((z.2.toList.map (fun v => (A, some v))).lookup c).getD none) = (partRow A z).val := by
      funext a
      unfold partRow
      cases z.2 with
      | none => simp
      | some v =>
        simp only [Option.toList_some, List.map_cons, List.map_nil, List.lookup_cons, List.lookup_nil]
        by_cases ha : a = A
        · subst ha; simp
        · have : (a == A) = false := by simpa using ha
          rw [this]; simp [ha]
    have hap' : acc.append c.timeframe (z.2.toList.map (fun v => (A, some v))) =
        .ok ⟨if z.2 = none then acc.cols else [A], rows'⟩ := by
      unfold TEResults.append
      rw [hval, e1, if_neg]
      · simp only
        congr 2
        cases z.2 with
        | none => simp
        | some v => rcases hcols with h | h <;> rw [h] <;> simp
      · rintro ⟨p, hp, hn⟩
        obtain ⟨v, _, rfl⟩ := List.mem_map.1 hp
        exact hn hA
    obtain ⟨p1, p2⟩ := List.pairwise_cons.1 hap
    obtain ⟨t, f1, f2, f3, f4, f5⟩ := ih (fun d hd => hlt d (List.mem_cons_of_mem _ hd)) p2
      ⟨if z.2 = none then acc.cols else [A], rows'⟩ e2 (by
        show (if z.2 = none then acc.cols else [A]) = [] ∨ (if z.2 = none then acc.cols else [A]) = [A]
        split
        · exact hcols
        · exact .inr rfl) (by
        intro d hd r hr
        rcases List.mem_cons.1 (e3.mem_iff.1 hr) with rfl | hr
        · exact p1 d hd
        · exact hfree d (List.mem_cons_of_mem _ hd) r hr)
    refine ⟨t, ?_, f2, f3, ?_, ?_⟩
    · simp only [energyOfChunks, h1.energy, hap']
      exact f1
    · rw [f4]
      simp only
      by_cases hz : z.2 = none
      · rw [if_pos hz]
        constructor
        · rintro (h | ⟨w, hw, h⟩)
          · exact .inl h
          · exact .inr ⟨w, List.mem_cons_of_mem _ hw, h⟩
        · rintro (h | ⟨w, hw, h⟩)
          · exact .inl h
          · rcases List.mem_cons.1 hw with rfl | hw
            · exact absurd hz h
            · exact .inr ⟨w, hw, h⟩
      · rw [if_neg hz]
        exact ⟨fun _ => .inr ⟨z, List.mem_cons_self, hz⟩, fun _ => .inl rfl⟩
    · refine f5.trans ((List.Perm.append_left _ e3).trans ?_)
      rw [List.map_cons, List.cons_append]
      exact List.perm_middle

theorem skipSum_parts (A : AC) (zs : List ((Int × Int) × Option Rat)) :
    skipSum ((zs.map (partRow A)).map (fun r => r.val A)) = (zs.filterMap Prod.snd).sum := by
  unfold skipSum
  congr 1
  rw [List.map_map, List.filterMap_map]
  congr 1
  funext z
  simp [partRow]

/-! ### Sections -/

theorem kwhOf_few (msp : Rat) (l : List (Int × Rat)) (h : l.length < 2) : kwhOf msp l = 0 := by
  match l, h with
  | [], _ => simp [kwhOf]
  | [_], _ => simp [kwhOf]

theorem window_bounds (a b : Option Int) (s e : Int) (he : ((mk' a b).intersection (mk' (some s) (some e))).empty = false) :
    ∃ s' e', ((mk' a b).intersection (mk' (some s) (some e))).start = some s' ∧
      ((mk' a b).intersection (mk' (some s) (some e))).stop = some e' ∧ s' < e' ∧ s ≤ s' ∧ e' ≤ e := by
  rw [window_and_table] at he ⊢
  by_cases h : (a.map (max · s)).getD s ≥ (b.map (min · e)).getD e
  · rw [if_pos h] at he; cases he
  · rw [if_neg h]
    refine ⟨_, _, rfl, rfl, by omega, ?_, ?_⟩
    · cases a with
      | none => exact le_refl _
      | some x => exact le_max_right _ _
    · cases b with
      | none => exact le_refl _
      | some x => exact min_le_right _ _

theorem inSection_mem (a b : Option Int) (s : Int × Int) (t : Int) :
    inSection a b s t = true ↔ Mem t ((mk' a b).intersection (mk' (some s.1) (some s.2))) := by
  rw [C02_intersection_halfopen _ _ _ rfl rfl]
  cases a <;> cases b <;> simp [inSection, Mem, mk', TF.start, TF.stop, and_assoc] <;> tauto

theorem tiles_upper {s e : Int} {fs : List TF} (h : Tiles s e fs) :
    s ≤ e ∧ ∀ f ∈ fs, ∀ x, f.stop = some x → x ≤ e := by
  induction h with
  | nil s => exact ⟨le_refl _, by simp⟩
  | cons s m e f fs hf hlt _ ih =>
    refine ⟨by omega, ?_⟩
    intro g hg x hx
    rcases List.mem_cons.1 hg with rfl | hg
    · rw [hf.2.2.2] at hx; cases hx; exact ih.1
    · exact ih.2 g hg x hx

theorem section_part (ms : List Measurement) (msp : Rat) (ac : String) (f : Rat → Rat)
    (hf : LimitedBy ms ("power", ac) f) (hac : acNamed ac ∈ acTypes) (rows : List (Row (Option Rat)))
    (hinc : Increasing rows) (hnum : ∀ r ∈ rows, r.2 ≠ none) (a b : Option Int) (s : Int × Int) (hs : s.1 < s.2) (cs : Int)
    (hcs : 0 < cs) :
    ∃ out zs, (loadSection (some rows) (mk' a b) 0 cs (mk' (some s.1) (some s.2))).1 = ⟨out, none⟩ ∧
      List.Forall₂ (IsPart ms msp [("power", ac)] (acNamed ac)) out zs ∧
      (∀ z ∈ zs, z.1.1 < z.1.2 ∧ s.1 ≤ z.1.1 ∧ z.1.2 ≤ s.2) ∧ zs.Pairwise (fun c d => c.1.2 ≤ d.1.1) ∧
      (zs.filterMap Prod.snd).sum =
        kwhOf msp (dropna ((rows.filter (fun r => inSection a b s r.1)).map (fun r => (r.1, r.2.map f)))) ∧
      ((∃ z ∈ zs, z.2 ≠ none) ↔ 2 ≤ (rows.filter (fun r => inSection a b s r.1)).length) := by
  have hp := inSection_mem a b s
  have hempty : ∀ k : List (Row (Option Rat)), k.length < 2 → kwhOf msp (dropna (k.map (fun r => (r.1, r.2.map f)))) = 0 := by
    intro k hk
    apply kwhOf_few
    refine lt_of_le_of_lt ?_ hk
    clear hk
    induction k with
    | nil => simp [dropna]
    | cons r k ih =>
      obtain ⟨t, v⟩ := r
      cases v <;> simp [dropna] at ih ⊢ <;> omega
  rcases Bool.eq_false_or_eq_true ((mk' a b).intersection (mk' (some s.1) (some s.2))).empty with he | he
  · have hnone : rows.filter (fun r => inSection a b s r.1) = [] := by
      rw [List.filter_eq_nil_iff]
      intro r _ hr
      have := ((hp r.1).1 hr).1
      rw [he] at this; cases this
    refine ⟨[⟨[], mk' (some s.1) (some s.2), none⟩], [(s, none)], ?_, .cons ⟨rfl, rfl, rfl, rfl⟩ .nil, ?_, ?_, ?_, ?_⟩
    · unfold loadSection
      simp only [he, if_true]
    · intro z hz
      simp only [List.mem_singleton] at hz
      subst hz
      exact ⟨hs, le_refl _, le_refl _⟩
    · simp
    · rw [hempty _ (by rw [hnone]; simp)]; rfl
    · rw [hnone]; simp
  · obtain ⟨s', e', w1, w2, w3, w4, w5⟩ := window_bounds a b s.1 s.2 he
    by_cases h2 : 2 ≤ (rows.filter (fun r => inSection a b s r.1)).length
    · obtain ⟨out, x, y, k1, k2, k3, k4, k5, k6, k7⟩ := section_out ms msp ac f hf hac rows hinc (mk' a b)
        (mk' (some s.1) (some s.2)) cs hcs _ hp (by rw [w1]; simp) h2 (fun r hr _ => hnum r hr)
      have hx := k3 _ w1
      have hy := k4 _ w2
      subst hx hy
      obtain ⟨bs, b1, b2, b3⟩ := tiles_bounds k5
      have hup := (tiles_upper k5).2
      have hlen : out.length = bs.length := by simpa using b1.length_eq
      set en : Chunk (Option Rat) → Rat := fun c => energyForPowerSeries msp (c.rows.map (fun r => (r.1, r.2.map f))) with hen
      refine ⟨out, (bs.zip out).map (fun q => (q.1, some (en q.2))), k1, ?_, ?_, ?_, ?_, ?_⟩
      · clear k1 k2 k5 k7 b2 b3 hup
        induction out generalizing bs with
        | nil => simp
        | cons c out ih =>
          cases bs with
          | nil => simp at hlen
          | cons d bs =>
            rw [List.map_cons, List.forall₂_cons] at b1
            rw [List.zip_cons_cons, List.map_cons]
            exact .cons ⟨b1.1.1, b1.1.2.1, b1.1.2.2, k6 c List.mem_cons_self⟩
              (ih (fun d hd => k6 d (List.mem_cons_of_mem _ hd)) bs b1.2 (by simpa using hlen))
      · intro z hz
        obtain ⟨⟨d, c⟩, hq, rfl⟩ := List.mem_map.1 hz
        have hd := (List.of_mem_zip hq).1
        obtain ⟨g, hg, hgd⟩ : ∃ g ∈ out.map Chunk.timeframe, g.stop = some d.2 := by
          generalize out.map Chunk.timeframe = gs at b1
          clear * - b1 hd
          induction b1 with
          | nil => cases hd
          | @cons g d' gs bs h _ ih =>
            rcases List.mem_cons.1 hd with rfl | hd
            · exact ⟨g, List.mem_cons_self, h.2.1⟩
            · obtain ⟨g', m, e⟩ := ih hd
              exact ⟨g', List.mem_cons_of_mem _ m, e⟩
        have h1 := b2 d hd
        have h3 := hup g hg d.2 hgd
        exact ⟨h1.1, by simp only; omega, by simp only; omega⟩
      · rw [List.pairwise_map]
        have : ((bs.zip out).map Prod.fst).Pairwise (fun c d : Int × Int => c.2 ≤ d.1) := by
          rw [List.map_fst_zip (by omega)]; exact b3
        rw [List.pairwise_map] at this
        exact this
      · rw [← k7, List.filterMap_map]
        have : ((bs.zip out).filterMap ((Prod.snd : (Int × Int) × Option Rat → Option Rat) ∘ fun q => (q.1, some (en q.2)))) =
            ((bs.zip out).map Prod.snd).map en := by
          rw [List.map_map, ← List.filterMap_eq_map]
          rfl
        rw [this, List.map_snd_zip (by omega)]
      · refine ⟨fun _ => h2, fun _ => ?_⟩
        obtain ⟨c, out, rfl⟩ := List.exists_cons_of_ne_nil k2
        cases bs with
        | nil => simp at hlen
        | cons d bs => exact ⟨_, List.mem_cons_self, by simp⟩
    · have h2' : (rows.filter (fun r => inSection a b s r.1)).length < 2 := by omega
      rcases section_few rows hinc (mk' a b) (mk' (some s.1) (some s.2)) cs hcs _ hp he (by rw [w1]; simp) h2' with h | h
      · refine ⟨[], [], h, .nil, by simp, .nil, ?_, ?_⟩
        · rw [hempty _ h2']; rfl
        · simp only [List.not_mem_nil, false_and, exists_false, false_iff]; omega
      · refine ⟨_, [((s', e'), none)], h, .cons ⟨w1, w2, he, rfl⟩ .nil, ?_, ?_, ?_, ?_⟩
        · intro z hz
          simp only [List.mem_singleton] at hz
          subst hz
          exact ⟨w3, w4, w5⟩
        · simp
        · rw [hempty _ h2']; rfl
        · simp only [List.mem_singleton, exists_eq_left, ne_eq, not_true_eq_false, false_iff]; omega

theorem sections_parts (ms : List Measurement) (msp : Rat) (ac : String) (f : Rat → Rat)
    (hf : LimitedBy ms ("power", ac) f) (hac : acNamed ac ∈ acTypes) (rows : List (Row (Option Rat)))
    (hinc : Increasing rows) (hnum : ∀ r ∈ rows, r.2 ≠ none) (a b : Option Int) (cs : Int) (hcs : 0 < cs)
    (secs : List (Int × Int)) (hlt : ∀ s ∈ secs, s.1 < s.2) (hap : secs.Pairwise (fun s d => s.2 ≤ d.1 ∨ d.2 ≤ s.1))
    (flag : Bool) :
    ∃ out zs, (loadSections (some rows) (mk' a b) 0 cs (asSections secs) flag).1 = ⟨out, none⟩ ∧
      List.Forall₂ (IsPart ms msp [("power", ac)] (acNamed ac)) out zs ∧
      (∀ z ∈ zs, z.1.1 < z.1.2 ∧ ∃ s ∈ secs, s.1 ≤ z.1.1 ∧ z.1.2 ≤ s.2) ∧
      zs.Pairwise (fun c d => c.1.2 ≤ d.1.1 ∨ d.1.2 ≤ c.1.1) ∧
      (zs.filterMap Prod.snd).sum = (secs.map (fun s =>
        kwhOf msp (dropna ((rows.filter (fun r => inSection a b s r.1)).map (fun r => (r.1, r.2.map f)))))).sum ∧
      ((∃ z ∈ zs, z.2 ≠ none) ↔ ∃ s ∈ secs, 2 ≤ (rows.filter (fun r => inSection a b s r.1)).length) := by
  induction secs generalizing flag with
  | nil => exact ⟨[], [], rfl, .nil, by simp, .nil, rfl, by simp⟩
  | cons s secs ih =>
    obtain ⟨p1, p2⟩ := List.pairwise_cons.1 hap
    obtain ⟨out1, zs1, a1, a2, a3, a4, a5, a6⟩ := section_part ms msp ac f hf hac rows hinc hnum a b s
      (hlt s List.mem_cons_self) cs hcs
    obtain ⟨out2, zs2, b1, b2, b3, b4, b5, b6⟩ := ih (fun d hd => hlt d (List.mem_cons_of_mem _ hd)) p2
      (flag && !(loadSection (some rows) (mk' a b) 0 cs (mk' (some s.1) (some s.2))).2)
    refine ⟨out1 ++ out2, zs1 ++ zs2, ?_, List.rel_append a2 b2, ?_, ?_, ?_, ?_⟩
    · unfold asSections at b1 ⊢
      rw [List.map_cons, loadSections]
      simp only [a1, b1, Gen.append]
    · intro z hz
      rcases List.mem_append.1 hz with hz | hz
      · have := a3 z hz
        exact ⟨this.1, s, List.mem_cons_self, this.2⟩
      · obtain ⟨c1, d, hd, c2⟩ := b3 z hz
        exact ⟨c1, d, List.mem_cons_of_mem _ hd, c2⟩
    · rw [List.pairwise_append]
      refine ⟨a4.imp (fun h => .inl h), b4, ?_⟩
      intro z hz w hw
      have h1 := a3 z hz
      obtain ⟨_, d, hd, h2⟩ := b3 w hw
      have h3 := p1 d hd
      omega
    · rw [List.filterMap_append, List.sum_append, a5, b5, List.map_cons, List.sum_cons]
    · constructor
      · rintro ⟨z, hz, hn⟩
        rcases List.mem_append.1 hz with hz | hz
        · exact ⟨s, List.mem_cons_self, a6.1 ⟨z, hz, hn⟩⟩
        · obtain ⟨d, hd, h⟩ := b6.1 ⟨z, hz, hn⟩
          exact ⟨d, List.mem_cons_of_mem _ hd, h⟩
      · rintro ⟨d, hd, h⟩
        rcases List.mem_cons.1 hd with rfl | hd
        · obtain ⟨z, hz, hn⟩ := a6.2 h
          exact ⟨z, List.mem_append_left _ hz, hn⟩
        · obtain ⟨z, hz, hn⟩ := b6.2 ⟨d, hd, h⟩
          exact ⟨z, List.mem_append_right _ hz, hn⟩

theorem tfSet_asSections (given : List (Int × Int)) : tfSet (asSections given) = asSections given.dedup := by
  induction given with
  | nil => rfl
  | cons s l ih =>
    have hany : ((asSections l).any (fun t => (mk' (some s.1) (some s.2)).eq t)) = decide (s ∈ l) := by
      rw [Bool.eq_iff_iff, List.any_eq_true, decide_eq_true_eq]
      unfold asSections
      constructor
      · rintro ⟨t, ht, he⟩
        obtain ⟨q, hq, rfl⟩ := List.mem_map.1 ht
        have : q = s := by
          obtain ⟨q1, q2⟩ := q
          obtain ⟨s1, s2⟩ := s
          simp only [TF.eq, mk', TF.start, TF.stop, if_true, Bool.and_eq_true, beq_iff_eq, Option.some.injEq] at he
          simp only [Prod.mk.injEq]
          omega
        rw [← this]; exact hq
      · intro hs
        exact ⟨_, List.mem_map_of_mem hs, by simp [TF.eq]⟩
    have hc : asSections (s :: l) = mk' (some s.1) (some s.2) :: asSections l := rfl
    rw [hc, tfSet, hany]
    by_cases hs : s ∈ l
    · rw [decide_eq_true hs, if_pos rfl, ih, List.dedup_cons_of_mem hs]
    · rw [decide_eq_false hs, if_neg (by simp), ih, List.dedup_cons_of_notMem hs]; rfl

theorem sectionsToCompute_asSections (given secs : List (Int × Int)) (hsame : ∀ s, s ∈ given ↔ s ∈ secs) (hlt : ∀ s ∈ secs, s.1 < s.2)
    (hap : secs.Pairwise (fun s d => s.2 ≤ d.1 ∨ d.2 ≤ s.1)) :
    ∃ secs', sectionsToCompute (asSections given) ([] : List (RRow Unit)) = .ok (asSections secs') ∧ secs'.Perm secs := by
  refine ⟨given.dedup.insertionSort (fun a b => a.1 ≤ b.1), ?_, ?_⟩
  · have hall : (asSections given).filter (fun s => !([] : List TF).any (fun t => s.eq t)) = asSections given := by simp
    have : sectionsToCompute (asSections given) ([] : List (RRow Unit)) =
        .ok ((tfSet ((asSections given).filter (fun s => !([] : List TF).any (fun t => s.eq t)))).insertionSort
          (fun a b => a.start.getD 0 ≤ b.start.getD 0)) := rfl
    rw [this, hall, tfSet_asSections]
    congr 1
    unfold asSections
    rw [List.map_insertionSort (r := fun a b : Int × Int => a.1 ≤ b.1) (s := fun a b : TF => a.start.getD 0 ≤ b.start.getD 0)]
    intro a _ b _
    rfl
  · refine (List.perm_insertionSort _ _).trans ?_
    rw [List.perm_ext_iff_of_nodup (List.nodup_dedup _)]
    · intro s; rw [List.mem_dedup, hsame]
    · have : secs.Pairwise (fun s d => s ∈ secs ∧ d ∈ secs ∧ (s.2 ≤ d.1 ∨ d.2 ≤ s.1)) :=
        hap.imp_of_mem (fun h1 h2 h3 => ⟨h1, h2, h3⟩)
      refine this.imp ?_
      rintro s d ⟨h1, h2, h3⟩ rfl
      have := hlt s h1
      omega

/-! ### Theorems -/

/-- C112. The energy of a meter in given sections (in any order, empty and repeated ones left out) that share no instant is the sum
over the sections of the energy of the readings in each and in the window: the time between sections counts nothing. If no section
has two readings, nothing is reported. -/
theorem C112_sections_partial (ms : List Measurement) (msp : Rat) (ac : String)
    (hac : ac = "active" ∨ ac = "apparent" ∨ ac = "reactive") (f : Rat → Rat) (hf : LimitedBy ms ("power", ac) f)
    (l : List (Int × Rat)) (hinc : l.Pairwise (fun x y => x.1 < y.1)) (a b : Option Int) (sections : List TF)
    (given secs : List (Int × Int)) (hsec : sections.filter (fun s => !s.empty) = asSections given)
    (hsame : ∀ s, s ∈ given ↔ s ∈ secs) (hlt : ∀ s ∈ secs, s.1 < s.2)
    (hap : secs.Pairwise (fun s d => s.2 ≤ d.1 ∨ d.2 ≤ s.1)) (inside : Int × Int → List (Int × Rat))
    (hin : ∀ s, inside s = l.filter (fun r => inSection a b s r.1)) (cs : Int) (hcs : 0 < cs) :
    meterTotalEnergy (some (asTable ac l)) ms msp (mk' a b) (some sections) cs =
      .ok (if ∃ s ∈ secs, 2 ≤ (inside s).length then
          [(acNamed ac, (secs.map (fun s => kwhOf msp ((inside s).map (fun r => (r.1, f r.2))))).sum)]
        else []) := by
  have hac' : acNamed ac ∈ acTypes := by rcases hac with rfl | rfl | rfl <;> decide
  set rows : List (Row (Option Rat)) := l.map (fun r => (r.1, some r.2)) with hrows
  have hi : Increasing rows := by
    unfold Increasing
    rw [hrows, List.pairwise_map]
    exact hinc
  have hnum : ∀ r ∈ rows, r.2 ≠ none := by
    intro r hr
    rw [hrows] at hr
    obtain ⟨q, _, rfl⟩ := List.mem_map.1 hr
    simp
  have hfil : ∀ s, rows.filter (fun r => inSection a b s r.1) = (inside s).map (fun r => (r.1, some r.2)) := by
    intro s
    rw [hrows, List.filter_map, hin]
    rfl
  have hdrop : ∀ k : List (Int × Rat), dropna ((k.map (fun r => (r.1, some r.2))).map (fun r => (r.1, r.2.map f))) =
      k.map (fun r => (r.1, f r.2)) := by
    intro k
    induction k with
    | nil => rfl
    | cons r k ih => simp only [List.map_cons, Option.map_some, dropna] at ih ⊢; rw [ih]
  obtain ⟨secs', hcomp, hperm⟩ := sectionsToCompute_asSections given secs hsame hlt hap
  have hsum : (secs.map (fun s => kwhOf msp ((inside s).map (fun r => (r.1, f r.2))))).sum =
      (secs'.map (fun s => kwhOf msp ((inside s).map (fun r => (r.1, f r.2))))).sum := (hperm.map _).sum_eq.symm
  have hex : (∃ s ∈ secs, 2 ≤ (inside s).length) ↔ ∃ s ∈ secs', 2 ≤ (inside s).length := by
    constructor
    · rintro ⟨s, hs, h⟩; exact ⟨s, hperm.mem_iff.2 hs, h⟩
    · rintro ⟨s, hs, h⟩; exact ⟨s, hperm.mem_iff.1 hs, h⟩
  rw [hsum, if_congr hex rfl rfl]
  have hlt' : ∀ s ∈ secs', s.1 < s.2 := fun s hs => hlt s (hperm.mem_iff.1 hs)
  have hap' : secs'.Pairwise (fun s d => s.2 ≤ d.1 ∨ d.2 ≤ s.1) := hperm.symm.pairwise hap (fun h => h.symm)
  clear hsum hex hperm hlt hap hsame
  generalize secs' = secs at hcomp hlt' hap'
  obtain ⟨out, zs, h1, h2, h3, h4, h5, h6⟩ := sections_parts ms msp ac f hf hac' rows hi hnum a b cs hcs secs hlt' hap' true
  simp only [hfil, hdrop, List.length_map] at h5 h6
  obtain ⟨t, e1, e2, e3, e4, e5⟩ := energyOfChunks_parts ms msp [("power", ac)] (acNamed ac) hac' out zs h2
    (fun z hz => (h3 z hz).1) h4 ⟨[], []⟩ ⟨by simp, by simp⟩ (.inl rfl) (by simp)
  simp only [List.nil_eq, List.cons_ne_nil, false_or, List.append_nil] at e4 e5
  have hcomb : ∀ rows', rows'.Perm t.rows → TEResults.combined ⟨t.cols, rows'⟩ =
      if ∃ s ∈ secs, 2 ≤ (inside s).length then
          [(acNamed ac, (secs.map (fun s => kwhOf msp ((inside s).map (fun r => (r.1, f r.2))))).sum)]
        else [] := by
    intro rows' hp
    by_cases hsome : ∃ s ∈ secs, 2 ≤ (inside s).length
    · rw [if_pos hsome]
      unfold TEResults.combined
      simp only
      rw [e4.2 (h6.2 hsome), List.map_singleton, skipSum_perm ((hp.trans e5).map _), skipSum_parts, h5]
    · rw [if_neg hsome]
      rcases e3 with h | h
      · unfold TEResults.combined
        simp only [h, List.map_nil]
      · exact absurd (h6.1 (e4.1 h)) hsome
  have hupd : ∃ res, TEResults.update ⟨[], []⟩ t = .ok res ∧ res.combined =
      if ∃ s ∈ secs, 2 ≤ (inside s).length then
          [(acNamed ac, (secs.map (fun s => kwhOf msp ((inside s).map (fun r => (r.1, f r.2))))).sum)]
        else [] := by
    unfold TEResults.update
    by_cases hr : t.rows.isEmpty = true
    · rw [if_pos hr]
      refine ⟨_, rfl, ?_⟩
      rw [if_neg]
      · rfl
      · intro hsome
        obtain ⟨z, hz, _⟩ := h6.2 hsome
        rw [List.isEmpty_iff.1 hr] at e5
        have := e5.length_eq
        simp only [List.length_nil, List.length_map] at this
        exact absurd (List.length_pos_of_mem hz) (by omega)
    · rw [if_neg hr]
      obtain ⟨u1, _, u3⟩ := (C29_update [] t.rows ⟨by simp, by simp⟩ e2).1 (by simp)
      cases hu : Results.update [] t.rows with
      | mk x y =>
        rw [hu] at u1 u3
        simp only at u1 u3
        subst u1
        refine ⟨_, rfl, ?_⟩
        have hcols : ([] : List AC) ++ t.cols.filter (fun c => c ∉ ([] : List AC)) = t.cols := by simp
        simp only [hcols]
        exact hcomb x u3
  obtain ⟨res, r1, r2⟩ := hupd
  unfold meterTotalEnergy
  simp only [statSections, hsec, hcomp]
  cases secs with
  | nil => simp [asSections]
  | cons s secs =>
    simp only [asSections, List.map_cons]
    have hc : computeEnergy (asTable ac l) ms msp (mk' a b) (asSections (s :: secs)) cs = .ok res := by
      unfold computeEnergy
      have hl : (hdfLoad (some rows) (mk' a b) (some (asSections (s :: secs))) 0 cs).1 = ⟨out, none⟩ := h1
      show (match energyOfChunks ms msp [("power", ac)] ⟨[], []⟩
        (hdfLoad (some rows) (mk' a b) (some (asSections (s :: secs))) 0 cs).1.out with
        | .error e => _ | .ok computed => _) = _
      rw [hl]
      simp only [e1]
      show (match (hdfLoad (some rows) (mk' a b) (some (asSections (s :: secs))) 0 cs).1.err with
        | some e => _ | none => _) = _
      rw [hl]
      exact r1
    simp only [asSections, List.map_cons] at hc
    rw [hc]
    simp only [r2, List.map_cons]

/-- C112, negation for sections that overlap: their energy is a `ValueError`. And the energy of two sections that touch is
less than that of both together: the interval across the border is in neither. -/
theorem C112_sections_counterexample :
    let t := asTable "active" [(0, 3600000), (1000000000, 3600000), (2000000000, 3600000), (3000000000, 3600000)]
    meterTotalEnergy (some t) exMeasures 10 TF.blank (some (asSections [(0, 2000000000), (1000000000, 4000000000)])) 10 =
      .error .valueError ∧
    meterTotalEnergy (some t) exMeasures 10 TF.blank (some (asSections [(0, 2000000000), (2000000000, 4000000000)])) 10 =
      .ok [(.active, 2)] ∧
    meterTotalEnergy (some t) exMeasures 10 TF.blank (some (asSections [(0, 4000000000)])) 10 = .ok [(.active, 3)] := by
  refine ⟨?_, ?_, ?_⟩ <;> decide +kernel

/-- Two sections in reverse order, one of them given twice, one empty time frame, one section without data. -/
example (cs : Int) (hcs : 0 < cs) :
    meterTotalEnergy (some (asTable "active" [(0, 3600000), (1000000000, 7200000), (2000000000, 0), (5000000000, 3600000),
        (6000000000, 0)])) exMeasures 10 (mk' none (some 7000000000))
      (some [mk' (some 4000000000) (some 9000000000), { TF.blank with empty := true }, mk' (some 0) (some 2500000000),
        mk' (some 9000000000) (some 9500000000), mk' (some 0) (some 2500000000)]) cs = .ok [(.active, 4)] := by
  rw [C112_sections_partial exMeasures 10 "active" (.inl rfl) _ exMeasures_limited _ (by decide +kernel) none (some 7000000000) _
    [(4000000000, 9000000000), (0, 2500000000), (9000000000, 9500000000), (0, 2500000000)]
    [(4000000000, 9000000000), (0, 2500000000), (9000000000, 9500000000)] rfl (by simp; tauto) (by decide) (by decide) _ (fun _ => rfl) cs hcs]
  decide +kernel

end Nilmtk
