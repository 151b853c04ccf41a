import Verif.Model.MeterEnergy
import Verif.Props.Redd
import Verif.Props.Cache
import Verif.Props.Energy
import Verif.Props.Measurement
import Verif.Props.Convert
/-!
C112: from the files of REDD to the energy of a meter.
-/
namespace Nilmtk
open TF

/-! ### Specification -/

/-- The energy in kWh of power readings (in watts, times in nanoseconds): every reading counts until the next one, but for at
most `msp` seconds. -/
def kwhOf (msp : Rat) (l : List (Int × Rat)) : Rat :=
  ((l.zip l.tail).map (fun p => min (((p.2.1 - p.1.1 : Int) : Rat) / 1000000000) msp * p.1.2)).sum / 3600000

/-- Not before `a` and not after `b`, as far as given. -/
def between (a b : Option Int) (t : Int) : Bool := a.all (fun s => decide (s ≤ t)) && b.all (fun e => decide (t ≤ e))

/-- Readings of a measurement are limited by `f`: the first entry for it decides. With two limits `f` takes the nearest value
between them, else it changes nothing. -/
def LimitedBy (ms : List Measurement) (c : Col) (f : Rat → Rat) : Prop :=
  ∃ pre m post, ms = pre ++ m :: post ∧ (∀ q ∈ pre, ¬ (q.pq = c.1 ∧ q.type = some c.2)) ∧ m.pq = c.1 ∧ m.type = some c.2 ∧
    ((∃ lo hi, m.lower = some lo ∧ m.upper = some hi ∧ lo ≤ hi ∧ ∀ v, f v = max lo (min v hi)) ∨
      ((m.lower = none ∨ m.upper = none) ∧ ∀ v, f v = v))

/-! ### One chunk -/

/-- What clipping does to a reading of the column. -/
def clipOne (ms : List Measurement) (c : Col) (x : Option Rat) : Option Rat :=
  match limitsFor none none ms c with
  | (some lo, some hi) => clipValue lo hi x
  | _ => x

theorem clipCol_one (ms : List Measurement) (c : Col) (l : List (Option Rat)) :
    clipCol none none ms (c, l) = (c, l.map (clipOne ms c)) := by
  unfold clipCol
  have hc : ∀ lims, limitsFor none none ms c = lims → clipOne ms c =
      match lims with
      | (some lo, some hi) => clipValue lo hi
      | _ => id := by
    intro lims h
    funext x
    unfold clipOne
    rw [h]
    rcases lims with ⟨_ | lo, _ | hi⟩ <;> rfl
  rw [hc _ rfl]
  rcases limitsFor none none ms c with ⟨_ | lo, _ | hi⟩ <;> simp

theorem findLimits_first (c : Col) (pre : List Measurement) (m : Measurement) (post : List Measurement)
    (h : ∀ q ∈ pre, ¬ (q.pq = c.1 ∧ q.type = some c.2)) (h1 : m.pq = c.1) (h2 : m.type = some c.2) :
    findLimits c (pre ++ m :: post) = (m.lower, m.upper) := by
  induction pre with
  | nil => simp [findLimits, h1, h2]
  | cons q pre ih =>
    rw [List.cons_append, findLimits, if_neg (h q List.mem_cons_self)]
    exact ih (fun x hx => h x (List.mem_cons_of_mem _ hx))

theorem clipOne_limited (ms : List Measurement) (c : Col) (f : Rat → Rat) (h : LimitedBy ms c f) :
    (∀ v, clipOne ms c (some v) = some (f v)) ∧ clipOne ms c none = none ∧ c ∈ availableColumns ms := by
  obtain ⟨pre, m, post, rfl, h1, h2, h3, h4⟩ := h
  have hl : limitsFor none none (pre ++ m :: post) c = (m.lower, m.upper) := by
    unfold limitsFor; rw [findLimits_first c pre m post h1 h2 h3]; rfl
  refine ⟨?_, ?_, ?_⟩
  · intro v
    unfold clipOne
    rw [hl]
    rcases h4 with ⟨lo, hi, e1, e2, e3, e4⟩ | ⟨e1, e2⟩
    · rw [e1, e2, e4]
      simp only [clipValue, Option.map_some, Option.some.injEq]
      rw [min_eq_left e3, max_eq_right e3]
      rcases le_total v lo with hv | hv
      · rw [max_eq_right hv, min_eq_left e3, min_eq_left (le_trans hv e3), max_eq_left hv]
      · rw [max_eq_left hv, max_eq_right (le_min hv e3)]
    · rw [e2]
      rcases e1 with e1 | e1
      · rw [e1]
      · rw [e1]; cases m.lower <;> rfl
  · unfold clipOne
    rw [hl]
    cases m.lower <;> cases m.upper <;> rfl
  · unfold availableColumns
    rw [List.mem_dedup]
    refine List.mem_map.2 ⟨m, by simp, ?_⟩
    rw [h2, h3]; rfl

theorem totalEnergy_power (msp : Rat) (A : AC) (hA : A ∈ acTypes) (s : Series) :
    getTotalEnergy msp [((.power, A), s)] = .ok [(A, some (energyForPowerSeries msp s))] := by
  simp only [acTypes, List.mem_cons, List.not_mem_nil, or_false] at hA
  rcases hA with rfl | rfl | rfl <;> rfl

theorem zip_times (rows : List (Row (Option Rat))) (g : Option Rat → Option Rat) :
    (rows.map Prod.fst).zip ((rows.map Prod.snd).map g) = rows.map (fun r => (r.1, g r.2)) := by
  induction rows with
  | nil => rfl
  | cons r rows ih => simp only [List.map_cons, List.zip_cons_cons, ih]

theorem chunkEnergy_power (ms : List Measurement) (msp : Rat) (ac : String) (hac : acNamed ac ∈ acTypes)
    (hav : ("power", ac) ∈ availableColumns ms) (rows : List (Row (Option Rat))) (hne : rows ≠ []) :
    chunkEnergy ms msp [("power", ac)] rows = .ok [(acNamed ac,
      some (energyForPowerSeries msp (rows.map (fun r => (r.1, clipOne ms ("power", ac) r.2)))))] := by
  unfold chunkEnergy chunkColumns
  rw [if_neg hne, List.filter_cons_of_pos (by simpa using hav), List.filter_nil, List.map_singleton,
    clipChunk_eq _ _ _ _ (by simp), List.map_singleton, clipCol_one, List.map_singleton]
  dsimp only
  rw [zip_times]
  exact totalEnergy_power msp _ hac _

theorem joules_zip (msp : Rat) (l : List (Row Rat)) :
    joules msp l = ((l.zip l.tail).map (fun p => min (((p.2.1 - p.1.1 : Int) : Rat) / 1000000000) msp * p.1.2)).sum := by
  induction l with
  | nil => rfl
  | cons a l ih =>
    cases l with
    | nil => rfl
    | cons b l =>
      rw [joules, ih]
      simp only [List.tail_cons, List.zip_cons_cons, List.map_cons, List.sum_cons, toSecs]

theorem energy_kwh (msp : Rat) (s : Series) : energyForPowerSeries msp s = kwhOf msp (dropna s) := by
  unfold energyForPowerSeries kwhOf
  rw [joules_zip]; rfl

/-! ### All chunks -/

theorem tiles_bounds {s e : Int} {fs : List TF} (h : Tiles s e fs) :
    ∃ bs : List (Int × Int), List.Forall₂ (fun f b => f.start = some b.1 ∧ f.stop = some b.2 ∧ f.empty = false) fs bs ∧
      (∀ b ∈ bs, b.1 < b.2 ∧ s ≤ b.1) ∧ bs.Pairwise (fun b d => b.2 ≤ d.1) := by
  induction h with
  | nil s => exact ⟨[], .nil, by simp, .nil⟩
  | cons s m e f fs hf hlt _ ih =>
    obtain ⟨bs, h1, h2, h3⟩ := ih
    refine ⟨(s, m) :: bs, .cons ⟨hf.2.2.1, hf.2.2.2, hf.1⟩ h1, ?_, ?_⟩
    · intro b hb
      rcases List.mem_cons.1 hb with rfl | hb
      · exact ⟨hlt, le_refl _⟩
      · have := h2 b hb; omega
    · exact List.pairwise_cons.2 ⟨fun d hd => (h2 d hd).2, h3⟩

theorem energyOfChunks_eq (ms : List Measurement) (msp : Rat) (columns : List Col) (en : List (Row (Option Rat)) → ChunkEnergy)
    (cs : List (Chunk (Option Rat))) (h : ∀ c ∈ cs, chunkEnergy ms msp columns c.rows = .ok (en c.rows)) (acc : TEResults) :
    energyOfChunks ms msp columns acc cs = appendChunks acc (cs.map (fun c => (c.timeframe, en c.rows))) := by
  induction cs generalizing acc with
  | nil => rfl
  | cons c cs ih =>
    simp only [energyOfChunks, List.map_cons, appendChunks]
    rw [h c List.mem_cons_self]
    dsimp only
    cases acc.append c.timeframe (en c.rows) with
    | error e => rfl
    | ok acc' => exact ih (fun d hd => h d (List.mem_cons_of_mem _ hd)) acc'

/-- A results object of one column; what its chunks are does not matter. -/
def oneSig (A : AC) : CSig := ⟨[A], fun _ => []⟩

theorem oneSig_wf (A : AC) (hA : A ∈ acTypes) : (oneSig A).WF :=
  ⟨by simp [oneSig], by simpa [oneSig] using hA, by simp [oneSig], by simp [oneSig], by simp [oneSig]⟩

theorem one_column_total (A : AC) (hA : A ∈ acTypes) (xs : List (TF × Rat)) (hne : xs ≠ []) (s e : Int)
    (ht : Tiles s e (xs.map Prod.fst)) :
    ∃ t, appendChunks ⟨[], []⟩ (xs.map (fun x => (x.1, [(A, some x.2)]))) = .ok t ∧
      ∃ t', TEResults.update ⟨[], []⟩ t = .ok t' ∧ t'.combined = [(A, (xs.map Prod.snd).sum)] := by
  obtain ⟨bs, h1, h2, h3⟩ := tiles_bounds ht
  have hlen : xs.length = bs.length := by have := h1.length_eq; simpa using this
  set cs : List ((Int × Int) × (AC → Option Rat)) := (bs.zip xs).map (fun p => (p.1, fun _ => some p.2.2)) with hcs
  have hf : List.Forall₂ (IsChunkOf (oneSig A)) (xs.map (fun x => (x.1, [(A, some x.2)]))) cs := by
    rw [hcs]
    clear h2 h3 ht hcs hne
    induction xs generalizing bs with
    | nil => simp
    | cons x xs ih =>
      cases bs with
      | nil => simp at hlen
      | cons b bs =>
        rw [List.map_cons, List.forall₂_cons] at h1
        rw [List.zip_cons_cons, List.map_cons, List.map_cons]
        refine .cons ⟨h1.1.1, h1.1.2.1, h1.1.2.2, rfl⟩ (ih bs h1.2 (by simpa using hlen))
  have hfst : cs.map Prod.fst = bs := by
    rw [hcs, List.map_map]
    exact List.map_fst_zip (by omega)
  obtain ⟨t, e1, e2, e3⟩ := appendChunks_ok (oneSig A) (oneSig_wf A hA) _ cs hf
    (by intro c hc; exact (h2 c.1 (hfst ▸ List.mem_map_of_mem hc)).1)
    (by
      have := hfst ▸ h3
      rw [List.pairwise_map] at this
      exact this.imp (fun h => Or.inl h)) ⟨[], []⟩ ⟨⟨by simp, by simp⟩, Or.inr rfl⟩ (by simp)
  obtain ⟨t', f1, f2, f3⟩ := te_update_ok (oneSig A) ⟨[], []⟩ t ⟨⟨by simp, by simp⟩, Or.inr rfl⟩ e2 (by simp)
  refine ⟨t, e1, t', f1, ?_⟩
  have hp : t'.rows.Perm (cs.map (sigRow (oneSig A))) := by
    refine f3.trans ?_
    simpa using e3
  have hcol : t'.cols = [A] := by
    rcases f2.2 with ⟨_, h⟩ | h
    · exact h
    · exfalso
      rw [h] at hp
      have := hp.length_eq
      simp only [List.length_nil, List.length_map, hcs, List.length_zip] at this
      have : xs.length = 0 := by omega
      exact hne (List.length_eq_zero_iff.1 this)
  unfold TEResults.combined
  rw [hcol, List.map_singleton, skipSum_perm (hp.map _)]
  have : (cs.map (sigRow (oneSig A))).map (fun r => r.val A) = (xs.map Prod.snd).map some := by
    rw [hcs, List.map_map, List.map_map]
    have : ∀ (bs : List (Int × Int)) (xs : List (TF × Rat)), xs.length = bs.length →
        (bs.zip xs).map ((fun r : RRow (AC → Option Rat) => r.val A) ∘ sigRow (oneSig A) ∘ fun p => (p.1, fun _ => some p.2.2)) =
          (xs.map Prod.snd).map some := by
      intro bs xs h
      rw [← List.map_snd_zip (l₁ := bs) (l₂ := xs) (by omega), List.map_map, List.map_map, List.map_snd_zip (by omega)]
      apply List.map_congr_left
      rintro ⟨b, x⟩ _
      simp [sigRow, oneSig]
    exact this bs xs hlen
  rw [this]
  congr 2
  unfold skipSum
  simp

theorem join_map {β γ : Type} (g : β → γ) (l : List (List β)) :
    joinOverlapping (l.map (List.map g)) = (joinOverlapping l).map g := by
  cases l with
  | nil => rfl
  | cons c cs =>
    simp only [joinOverlapping, List.map_cons, List.map_append, List.map_flatten, List.map_map]
    congr 3
    funext x
    simp

theorem loadSections_one {α : Type} (table : Option (List (Row α))) (window : TF) (nLook cs : Int) (sec : TF)
    (h : (loadSection table window nLook cs sec).1.err = none) :
    (hdfLoad table window (some [sec]) nLook cs).1 = (loadSection table window nLook cs sec).1 := by
  unfold hdfLoad
  simp only [Option.getD_some, loadSections, h, Gen.append, Gen.done, List.append_nil]
  cases hl : (loadSection table window nLook cs sec).1 with
  | mk out err => rw [hl] at h; simp only at h; rw [h]

theorem section_out (ms : List Measurement) (msp : Rat) (ac : String) (f : Rat → Rat)
    (hf : LimitedBy ms ("power", ac) f) (hac : acNamed ac ∈ acTypes) (rows : List (Row (Option Rat)))
    (hinc : Increasing rows) (window sec : TF) (cs : Int) (hcs : 0 < cs) (p : Int → Bool)
    (hp : ∀ t, p t = true ↔ Mem t (window.intersection sec)) (hb : (window.intersection sec).start ≠ none)
    (h2 : 2 ≤ (rows.filter (fun r => p r.1)).length) (hnum : ∀ r ∈ rows, p r.1 = true → r.2 ≠ none) :
    ∃ (out : List (Chunk (Option Rat))) (s e : Int), (loadSection (some rows) window 0 cs sec).1 = ⟨out, none⟩ ∧ out ≠ [] ∧
      (∀ x, (window.intersection sec).start = some x → s = x) ∧ (∀ x, (window.intersection sec).stop = some x → e = x) ∧
      Tiles s e (out.map Chunk.timeframe) ∧
      (∀ c ∈ out, chunkEnergy ms msp [("power", ac)] c.rows = .ok [(acNamed ac,
        some (energyForPowerSeries msp (c.rows.map (fun r => (r.1, r.2.map f)))))]) ∧
      (out.map (fun c => energyForPowerSeries msp (c.rows.map (fun r => (r.1, r.2.map f))))).sum =
        kwhOf msp (dropna ((rows.filter (fun r => p r.1)).map (fun r => (r.1, r.2.map f)))) := by
  obtain ⟨start, stop, hs, _, h3, h4, h5, _⟩ := loadSection_spec rows hinc window sec 0 cs hcs p hp h2
  have herr : (loadSection (some rows) window 0 cs sec).1.err = none := by
    rw [C14_load_error_iff rows hinc window sec 0 cs hcs p hp h2, if_neg (fun h => hb h.1)]
  set out := (loadSection (some rows) window 0 cs sec).1.out with hout
  obtain ⟨g1, g2, g3⟩ := clipOne_limited ms _ f hf
  have hclip : ∀ x, clipOne ms ("power", ac) x = x.map f := by
    intro x; cases x with
    | none => exact g2
    | some v => exact g1 v
  have hce : ∀ c ∈ out, chunkEnergy ms msp [("power", ac)] c.rows = .ok [(acNamed ac,
      some (energyForPowerSeries msp (c.rows.map (fun r => (r.1, r.2.map f)))))] := by
    intro c hc
    rw [chunkEnergy_power ms msp ac hac g3 c.rows (by
      intro h; have := (hs.size c hc).1; rw [h] at this; simp at this)]
    simp only [hclip]
  have htiles := hs.tiles
  rw [← hout, if_pos rfl] at htiles
  refine ⟨out, _, _, ?_, hs.nonempty, ?_, ?_, htiles, hce, ?_⟩
  · cases hl : (loadSection (some rows) window 0 cs sec).1 with
    | mk o e =>
      rw [hl] at herr hout
      simp only at herr hout
      rw [herr, hout]
  · intro x hx; rw [hx]; rfl
  · intro x hx; rw [hx]; rfl
  rw [← energy_kwh]
  have hshare : Consecutive SharesReading (out.map (fun c => c.rows.map (fun r => (r.1, r.2.map f)))) := by
    have hj := hs.joined
    rw [h3, ← hout] at hj
    have : Consecutive (fun c d : Chunk (Option Rat) => SharesReading (c.rows.map (fun r => (r.1, r.2.map f)))
        (d.rows.map (fun r => (r.1, r.2.map f)))) out := by
      refine consecutive_imp (fun c => c.rows.tail ≠ [] ∧ ∀ r ∈ c.rows.tail, r ∈ rows ∧ p r.1 = true) ?_ ?_ hs.share
      · intro c hc
        refine ⟨?_, ?_⟩
        · have := (hs.size c hc).1
          intro h; have hl := congrArg List.length h; simp at hl; omega
        · intro r hr
          have := joinOverlapping_mem (out.map Chunk.rows) c.rows (List.mem_map_of_mem hc) r hr
          rw [hj] at this
          exact List.mem_filter.1 this
      · rintro c d ⟨q1, q2⟩ ⟨r, k1, k2⟩
        have hr : r ∈ c.rows.tail := by
          cases hcr : c.rows with
          | nil => rw [hcr] at q1; simp at q1
          | cons x l =>
            rw [hcr] at q1 k1
            cases l with
            | nil => simp at q1
            | cons y l => rw [List.getLast?_cons_cons] at k1; exact List.mem_of_getLast? k1
        obtain ⟨m1, m2⟩ := q2 r hr
        obtain ⟨tm', v⟩ := r
        cases v with
        | none => exact absurd rfl (hnum _ m1 m2)
        | some v =>
          refine ⟨tm', f v, ?_, ?_⟩
          · rw [List.getLast?_map, k1]; rfl
          · rw [List.head?_map, k2]; rfl
    clear_value out
    clear * - this
    induction this with
    | nil => exact .nil
    | single a => exact .single _
    | cons a b l h _ ih => exact .cons _ _ _ h ih
  have hsum := C19_chunk_energies_add_up msp _ hshare
  rw [List.map_map] at hsum
  refine hsum.trans ?_
  congr 1
  have hj := hs.joined
  rw [h3, ← hout] at hj
  rw [← hj, ← join_map, List.map_map]
  rfl

theorem section_energy (ms : List Measurement) (msp : Rat) (ac : String) (f : Rat → Rat)
    (hf : LimitedBy ms ("power", ac) f) (hac : acNamed ac ∈ acTypes) (rows : List (Row (Option Rat)))
    (hinc : Increasing rows) (window sec : TF) (cs : Int) (hcs : 0 < cs) (p : Int → Bool)
    (hp : ∀ t, p t = true ↔ Mem t (window.intersection sec)) (hb : (window.intersection sec).start ≠ none)
    (h2 : 2 ≤ (rows.filter (fun r => p r.1)).length) (hnum : ∀ r ∈ rows, p r.1 = true → r.2 ≠ none) :
    ∃ res, computeEnergy ⟨[("power", ac)], rows⟩ ms msp window [sec] cs = .ok res ∧
      res.combined = [(acNamed ac, kwhOf msp (dropna ((rows.filter (fun r => p r.1)).map (fun r => (r.1, r.2.map f)))))] := by
  obtain ⟨out, s, e, hout, hne, _, _, htiles, hce, hsum⟩ :=
    section_out ms msp ac f hf hac rows hinc window sec cs hcs p hp hb h2 hnum
  have hone := loadSections_one (some rows) window 0 cs sec (by rw [hout])
  unfold computeEnergy
  simp only [hone, hout]
  rw [energyOfChunks_eq ms msp _ (fun r => [(acNamed ac, some (energyForPowerSeries msp (r.map (fun r => (r.1, r.2.map f)))))])
    out hce]
  obtain ⟨t, e1, t', e2, e3⟩ := one_column_total (acNamed ac) hac
    (out.map (fun c => (c.timeframe, energyForPowerSeries msp (c.rows.map (fun r => (r.1, r.2.map f))))))
    (by intro h; exact hne (List.map_eq_nil_iff.1 h)) _ _ (by
      rw [List.map_map]; exact htiles)
  rw [List.map_map] at e1
  have e1' : appendChunks ⟨[], []⟩ (out.map (fun c => (c.timeframe, [(acNamed ac,
      some (energyForPowerSeries msp (c.rows.map (fun r => (r.1, r.2.map f)))))]))) = .ok t := e1
  rw [e1']
  refine ⟨t', e2, ?_⟩
  rw [e3, ← hsum, List.map_map]
  rfl

theorem section_few {α : Type} (rows : List (Row α)) (hinc : Increasing rows) (window sec : TF) (cs : Int) (hcs : 0 < cs)
    (p : Int → Bool) (hp : ∀ t, p t = true ↔ Mem t (window.intersection sec)) (he : (window.intersection sec).empty = false)
    (hb : (window.intersection sec).start ≠ none) (h2 : (rows.filter (fun r => p r.1)).length < 2) :
    (loadSection (some rows) window 0 cs sec).1 = ⟨[], none⟩ ∨
    (loadSection (some rows) window 0 cs sec).1 = ⟨[⟨[], window.intersection sec, none⟩], none⟩ := by
  unfold loadSection
  simp only [he, Bool.false_eq_true, if_false]
  cases hq : (window.intersection sec).queryTerms with
  | error e =>
    exfalso
    simp only [queryTerms, he, Bool.false_eq_true, if_false] at hq
    split at hq <;> cases hq
  | ok o =>
    cases o with
    | none => exact absurd (queryTerms_none hq).2.1 hb
    | some terms =>
      simp only
      have hfil : rows.filter (fun r => p r.1) = rows.filter (fun r => matchesTerms terms r.1) := by
        apply List.filter_congr
        intro r _
        rw [Bool.eq_iff_iff, hp, matchesTerms_iff hq]
      rw [hfil] at h2
      cases hh : (coordinates terms rows).head? with
      | none => right; rfl
      | some a =>
        cases hl : (coordinates terms rows).getLast? with
        | none => right; rfl
        | some b =>
          left
          obtain ⟨h1, h3, _, _, h5⟩ := select_coordinates terms rows hinc a b hh hl
          rw [← h5, select_length] at h2
          have : a = b := by omega
          subst this
          simp only [loadRange, hcs, dif_pos]
          rw [chunkLoop_done _ _ _ _ _ _ _ _ _ (Nat.le_refl _)]
          rfl

theorem section_nothing (ms : List Measurement) (msp : Rat) (cols : List Col) (rows : List (Row (Option Rat)))
    (hinc : Increasing rows) (window sec : TF) (cs : Int) (hcs : 0 < cs) (p : Int → Bool)
    (hp : ∀ t, p t = true ↔ Mem t (window.intersection sec)) (he : (window.intersection sec).empty = false) (s e : Int)
    (hs : (window.intersection sec).start = some s) (hst : (window.intersection sec).stop = some e) (hse : s < e)
    (h2 : (rows.filter (fun r => p r.1)).length < 2) :
    ∃ res, computeEnergy ⟨cols, rows⟩ ms msp window [sec] cs = .ok res ∧ res.combined = [] := by
  have herr : (loadSection (some rows) window 0 cs sec).1.err = none := by
    rcases section_few rows hinc window sec cs hcs p hp he (by rw [hs]; simp) h2 with h | h <;> rw [h]
  have hone := loadSections_one (some rows) window 0 cs sec herr
  unfold computeEnergy
  simp only [hone, herr]
  rcases section_few rows hinc window sec cs hcs p hp he (by rw [hs]; simp) h2 with h | h
  · rw [h]; exact ⟨_, rfl, rfl⟩
  · rw [h]
    have hce : chunkEnergy ms msp cols [] = .ok [] := rfl
    have hok : RowsOK ([] : List (RRow (AC → Option Rat))) := ⟨by simp, by simp⟩
    obtain ⟨rows', e1, e2, e3⟩ := (C28_append [] hok (window.intersection sec) s e hs hst he hse
      (fun c => (([] : ChunkEnergy).lookup c).getD none)).1 (by simp)
    have hte : TEResults.append ⟨[], []⟩ (window.intersection sec) [] = .ok ⟨[], rows'⟩ := by
      unfold TEResults.append
      rw [if_neg (by simp), e1]
      simp
    simp only [energyOfChunks, hce, hte]
    obtain ⟨u1, _, _⟩ := (C29_update [] rows' hok e2).1 (by simp)
    unfold TEResults.update
    by_cases hr : rows'.isEmpty = true
    · rw [if_pos hr]; exact ⟨_, rfl, rfl⟩
    · rw [if_neg hr]
      cases hu : Results.update [] rows' with
      | mk x y =>
        rw [hu] at u1
        simp only at u1
        subst u1
        exact ⟨_, rfl, rfl⟩

/-! ### The window -/

theorem window_and_table (a b : Option Int) (first last : Int) :
    (mk' a b).intersection (mk' (some first) (some last)) =
      if (a.map (max · first)).getD first ≥ (b.map (min · last)).getD last then
        built none none true (interInclude (mk' a b) (mk' (some first) (some last)))
      else built (some ((a.map (max · first)).getD first)) (some ((b.map (min · last)).getD last)) false
        (interInclude (mk' a b) (mk' (some first) (some last))) := by
  cases a <;> cases b <;> rfl

theorem window_and_section (a b : Option Int) (s e : Int) (hse : s < e) (ha : ∀ x, a = some x → x ≤ s)
    (hb : ∀ y, b = some y → e ≤ y) :
    (mk' a b).intersection (built (some s) (some e) false true) = built (some s) (some e) false true := by
  have h1 : interStart (mk' a b) (built (some s) (some e) false true) = some s := by
    cases a with
    | none => rfl
    | some x =>
      show some (max x s) = some s
      rw [max_eq_right (ha x rfl)]
  have h2 : interEnd (mk' a b) (built (some s) (some e) false true) = some e := by
    cases b with
    | none => rfl
    | some y =>
      show some (min y e) = some e
      rw [min_eq_right (hb y rfl)]
  have h3 : interInclude (mk' a b) (built (some s) (some e) false true) = true := by
    unfold interInclude
    rw [h2, if_pos (show some e = (built (some s) (some e) false true).stop from rfl)]
    rfl
  unfold intersection
  rw [h1, h2, h3]
  show (if s ≥ e then _ else _) = _
  rw [if_neg (by omega)]

theorem default_section (a b : Option Int) (first last : Int)
    (he : ((mk' a b).intersection (mk' (some first) (some last))).empty = false) :
    ∃ s e, s < e ∧ (mk' a b).intersection { (mk' a b).intersection (mk' (some first) (some last)) with includeEnd := true } =
        built (some s) (some e) false true ∧
      ∀ t, Mem t (built (some s) (some e) false true) ↔ (first ≤ t ∧ t ≤ last ∧ between a b t = true) := by
  rw [window_and_table] at he ⊢
  by_cases h : (a.map (max · first)).getD first ≥ (b.map (min · last)).getD last
  · rw [if_pos h] at he; cases he
  · rw [if_neg h]
    refine ⟨(a.map (max · first)).getD first, (b.map (min · last)).getD last, by omega, ?_, ?_⟩
    · apply window_and_section
      · omega
      · rintro x rfl; exact le_max_left _ _
      · rintro y rfl; exact min_le_left _ _
    · intro t
      simp only [Mem, built, TF.start, TF.stop, between]
      rcases a with _ | a <;> rcases b with _ | b <;> simp [-not_le] <;> omega

theorem default_section_empty (a b : Option Int) (first last : Int)
    (he : ((mk' a b).intersection (mk' (some first) (some last))).empty = true) (t t' : Int)
    (h1 : first ≤ t) (h2 : t ≤ last) (h3 : between a b t = true) (h1' : first ≤ t') (h2' : t' ≤ last) (h3' : between a b t' = true) :
    t = t' := by
  rw [window_and_table] at he
  by_cases h : (a.map (max · first)).getD first ≥ (b.map (min · last)).getD last
  · rcases a with _ | a <;> rcases b with _ | b <;> simp [between] at h h3 h3' <;> omega
  · rw [if_neg h] at he; cases he

theorem sectionsToCompute_one (p : TF → Bool) (s : TF) :
    sectionsToCompute ([s].filter p) ([] : List (RRow Unit)) = .ok ([s].filter p) := by
  cases h : p s with
  | true => rw [List.filter_cons_of_pos h, List.filter_nil]; rfl
  | false => rw [List.filter_cons_of_neg (by simp [h]), List.filter_nil]; rfl

/-! ### Theorems -/

/-- The readings as they are in a table. -/
def asTable (ac : String) (l : List (Int × Rat)) : RawTable (Option Rat) := ⟨[("power", ac)], l.map (fun r => (r.1, some r.2))⟩

/-- C112. The energy of a meter is that of its readings within the window, limited as the device says: every reading counts
until the next, for at most `max_sample_period`; whatever the chunk size. A reading at the end of the window ends the last
interval. With fewer than two readings nothing is reported. -/
theorem C112_meter_partial (ms : List Measurement) (msp : Rat) (ac : String)
    (hac : ac = "active" ∨ ac = "apparent" ∨ ac = "reactive") (f : Rat → Rat) (hf : LimitedBy ms ("power", ac) f)
    (l : List (Int × Rat)) (hinc : l.Pairwise (fun x y => x.1 < y.1)) (h2 : 2 ≤ l.length) (a b : Option Int)
    (cs : Int) (hcs : 0 < cs) :
    meterTotalEnergy (some (asTable ac l)) ms msp (mk' a b) none cs =
      .ok (if (l.filter (fun r => between a b r.1)).length < 2 then []
        else [(acNamed ac, kwhOf msp ((l.filter (fun r => between a b r.1)).map (fun r => (r.1, f r.2))))]) := by
  have hac' : acNamed ac ∈ acTypes := by rcases hac with rfl | rfl | rfl <;> decide
  set rows : List (Row (Option Rat)) := l.map (fun r => (r.1, some r.2)) with hrows
  have hi : Increasing rows := by
    unfold Increasing
    rw [hrows, List.pairwise_map]
    exact hinc
  obtain ⟨x, mid, y, rfl⟩ : ∃ x mid y, l = x :: (mid ++ [y]) := by
    cases l with
    | nil => simp at h2
    | cons x l =>
      rcases List.eq_nil_or_concat l with rfl | ⟨mid, y, rfl⟩
      · simp at h2
      · exact ⟨x, mid, y, by simp⟩
  have hxy : x.1 < y.1 := (List.pairwise_cons.1 hinc).1 y (by simp)
  have hin : ∀ r ∈ x :: (mid ++ [y]), x.1 ≤ r.1 ∧ r.1 ≤ y.1 := by
    intro r hr
    constructor
    · rcases List.mem_cons.1 hr with rfl | hr
      · exact le_refl _
      · exact le_of_lt ((List.pairwise_cons.1 hinc).1 r hr)
    · rw [← List.cons_append] at hr hinc
      rcases List.mem_append.1 hr with hr | hr
      · exact le_of_lt ((List.pairwise_append.1 hinc).2.2 r hr y (by simp))
      · simp only [List.mem_singleton] at hr; subst hr; exact le_refl _
  have htf : tableTimeframe rows (mk' a b) = .ok ((mk' a b).intersection (mk' (some x.1) (some y.1))) := by
    unfold tableTimeframe
    have hh : rows.head? = some (x.1, some x.2) := by rw [hrows]; rfl
    have hl : rows.getLast? = some (y.1, some y.2) := by
      rw [hrows, List.getLast?_map, ← List.cons_append, List.getLast?_append]; rfl
    rw [hh, hl]
    simp only [ctor_two _ _ hxy]
  have hfilter : ∀ p : Int → Bool, (∀ r ∈ x :: (mid ++ [y]), p r.1 = between a b r.1) →
      rows.filter (fun r => p r.1) = ((x :: (mid ++ [y])).filter (fun r => between a b r.1)).map (fun r => (r.1, some r.2)) := by
    intro p hp
    rw [hrows, List.filter_map]
    congr 1
    apply List.filter_congr
    intro r hr
    exact hp r hr
  have hsec : statSections (asTable ac (x :: (mid ++ [y]))).rows (mk' a b) none = .ok
      ([{ (mk' a b).intersection (mk' (some x.1) (some y.1)) with includeEnd := true }].filter (fun s => !s.empty)) := by
    unfold statSections
    have : (asTable ac (x :: (mid ++ [y]))).rows = rows := rfl
    rw [this, htf]
    exact sectionsToCompute_one _ _
  unfold meterTotalEnergy
  simp only [hsec]
  rcases Bool.eq_false_or_eq_true ((mk' a b).intersection (mk' (some x.1) (some y.1))).empty with he | he
  · rw [List.filter_cons_of_neg (by simp [he]), List.filter_nil]
    simp only
    rw [if_pos]
    have huniq : ∀ r ∈ (x :: (mid ++ [y])).filter (fun r => between a b r.1),
        ∀ q ∈ (x :: (mid ++ [y])).filter (fun r => between a b r.1), r.1 = q.1 := by
      intro r hr q hq
      rw [List.mem_filter] at hr hq
      exact default_section_empty a b x.1 y.1 he _ _ (hin r hr.1).1 (hin r hr.1).2 hr.2 (hin q hq.1).1 (hin q hq.1).2 hq.2
    have hpw := hinc.filter (fun r => between a b r.1)
    generalize (x :: (mid ++ [y])).filter (fun r => between a b r.1) = k at huniq hpw
    match k, hpw with
    | [], _ => simp
    | [_], _ => simp
    | r :: q :: k, hpw =>
      exfalso
      have h3 := huniq r (by simp) q (by simp)
      have h4 := (List.pairwise_cons.1 hpw).1 q (by simp)
      omega
  · rw [List.filter_cons_of_pos (by simp [he]), List.filter_nil]
    simp only
    obtain ⟨s, e, hse, heq, hmem⟩ := default_section a b x.1 y.1 he
    set p : Int → Bool := fun t => decide (x.1 ≤ t) && decide (t ≤ y.1) && between a b t with hpdef
    have hp : ∀ t, p t = true ↔
        Mem t ((mk' a b).intersection { (mk' a b).intersection (mk' (some x.1) (some y.1)) with includeEnd := true }) := by
      intro t
      rw [heq, hmem]
      simp [hpdef, and_assoc]
    have hfil := hfilter p (by
      intro r hr
      obtain ⟨g1, g2⟩ := hin r hr
      simp [hpdef, g1, g2])
    by_cases hfew : ((x :: (mid ++ [y])).filter (fun r => between a b r.1)).length < 2
    · obtain ⟨res, e1, e2⟩ := section_nothing ms msp [("power", ac)] rows hi (mk' a b) _ cs hcs p hp (by rw [heq]; rfl) s e
        (by rw [heq]; rfl) (by rw [heq]; rfl) hse (by rw [hfil, List.length_map]; exact hfew)
      have e1' : computeEnergy (asTable ac (x :: (mid ++ [y]))) ms msp (mk' a b)
        [{ (mk' a b).intersection (mk' (some x.1) (some y.1)) with includeEnd := true }] cs = .ok res := e1
      rw [if_pos hfew]
      simp only [e1', e2]
    · obtain ⟨res, e1, e2⟩ := section_energy ms msp ac f hf hac' rows hi (mk' a b) _ cs hcs p hp (by rw [heq]; simp [built, TF.start])
        (by rw [hfil, List.length_map]; omega) (by
          intro r hr _
          rw [hrows] at hr
          obtain ⟨q, _, rfl⟩ := List.mem_map.1 hr
          simp)
      have e1' : computeEnergy (asTable ac (x :: (mid ++ [y]))) ms msp (mk' a b)
        [{ (mk' a b).intersection (mk' (some x.1) (some y.1)) with includeEnd := true }] cs = .ok res := e1
      rw [if_neg hfew]
      simp only [e1', e2]
      rw [hfil, List.map_map]
      congr 4
      generalize (x :: (mid ++ [y])).filter (fun r => between a b r.1) = k
      clear * -
      induction k with
      | nil => rfl
      | cons r k ih =>
        simp only [List.map_cons, Function.comp, Option.map_some, dropna]
        rw [show dropna (k.map ((fun r : Row (Option Rat) => (r.1, Option.map f r.2)) ∘ fun r => (r.1, some r.2))) = _ from ih]

/-- The energy in kWh of power readings with times in seconds: as `kwhOf`. -/
def kwhOfSeconds (msp : Rat) (l : List (Int × Rat)) : Rat :=
  ((l.zip l.tail).map (fun p => min ((p.2.1 - p.1.1 : Int) : Rat) msp * p.1.2)).sum / 3600000

theorem kwh_seconds (msp : Rat) (l : List (Int × Rat)) :
    kwhOf msp (l.map (fun r => (r.1 * 1000000000, r.2))) = kwhOfSeconds msp l := by
  unfold kwhOf kwhOfSeconds
  congr 2
  induction l with
  | nil => rfl
  | cons x l ih =>
    cases l with
    | nil => rfl
    | cons y l =>
      simp only [List.map_cons, List.tail_cons, List.zip_cons_cons] at ih ⊢
      rw [ih]
      congr 3
      push_cast
      ring

/-- The content of a file of a channel: a time in seconds and a reading in every line. -/
def asFile (l : List (Int × Rat)) : RawRows (Option Rat) := l.map (fun r => (r.1, some r.2))

theorem redd_table {sort : List (Int × Option Rat) → List (Int × Option Rat)} (hs : SortsByTime sort)
    {tree : RawTree (Option Rat)} (hx : ExpectedTree tree) (house chan : Nat) (hh : house ≤ 9) (hc : chan ≤ 99)
    (file order : List (Int × Rat)) (hf : ChannelFile tree house chan (asFile file)) (hp : order.Perm file)
    (hord : order.Pairwise (fun x y => x.1 < y.1)) :
    (convertRedd sort (some tree)).1 (meterKey house chan) =
      some (asTable (if chan = 1 ∨ chan = 2 then "apparent" else "active") (order.map (fun r => (r.1 * 1000000000, r.2)))) := by
  obtain ⟨st, h1, h2, _⟩ := C88_redd_partial hs hx
  obtain ⟨t, g1, g2, g3, g4⟩ := h2 house chan (asFile file) hh hc hf
  rw [h1]
  show st (meterKey house chan) = _
  rw [g1]
  congr 1
  have hrows : t.rows = (order.map (fun r => (r.1 * 1000000000, r.2))).map (fun r => (r.1, some r.2)) := by
    have hperm : t.rows.Perm ((order.map (fun r => (r.1 * 1000000000, r.2))).map (fun r => (r.1, some r.2))) := by
      refine g3.trans ?_
      unfold inNanoseconds asFile
      rw [List.map_map, List.map_map]
      exact (hp.symm.map _)
    have hlt : ((order.map (fun r => (r.1 * 1000000000, r.2))).map (fun r => (r.1, some r.2))).Pairwise
        (fun x y : Int × Option Rat => x.1 < y.1) := by
      rw [List.map_map, List.pairwise_map]
      exact hord.imp (fun h => by simp only [Function.comp]; omega)
    refine hperm.eq_of_pairwise (le := fun x y => x.1 ≤ y.1) ?_ g4 (hlt.imp le_of_lt)
    intro x y hxm hym h3 h4
    have hxm' := hperm.mem_iff.1 hxm
    have heq : x.1 = y.1 := le_antisymm h3 h4
    by_contra hne
    have hsym : ∀ l : List (Int × Option Rat), l.Pairwise (fun x y => x.1 < y.1) → x ∈ l → y ∈ l → False := by
      intro l hl m1 m2
      induction hl with
      | nil => cases m1
      | cons h _ ih =>
        rcases List.mem_cons.1 m1 with e1 | k1
        · rcases List.mem_cons.1 m2 with e2 | k2
          · exact hne (e1.trans e2.symm)
          · have := h _ k2; rw [← e1] at this; omega
        · rcases List.mem_cons.1 m2 with e2 | k2
          · have := h _ k1; rw [← e2] at this; omega
          · exact ih k1 k2
    exact hsym _ hlt hxm' hym
  cases t with
  | mk columns rows =>
    simp only at g2 hrows
    rw [g2, hrows]
    rfl

/-- C112. From the files to the energy: after converting REDD, the energy of a meter is that of the readings in the file of its
channel which are within the window, in the order of time, limited as the device says, whatever the order of the lines and the
chunk size. Channels 1 and 2 report apparent energy, all others active energy. -/
theorem C112_redd_partial {sort : List (Int × Option Rat) → List (Int × Option Rat)} (hs : SortsByTime sort)
    {tree : RawTree (Option Rat)} (hx : ExpectedTree tree) (house chan : Nat) (hh : house ≤ 9) (hc : chan ≤ 99)
    (file order : List (Int × Rat)) (hf : ChannelFile tree house chan (asFile file)) (hp : order.Perm file)
    (hord : order.Pairwise (fun x y => x.1 < y.1)) (h2 : 2 ≤ file.length)
    (ms : List Measurement) (msp : Rat) (f : Rat → Rat)
    (hlim : LimitedBy ms ("power", if chan = 1 ∨ chan = 2 then "apparent" else "active") f) (a b : Option Int)
    (inside : List (Int × Rat)) (hin : inside = order.filter (fun r => between a b (r.1 * 1000000000)))
    (cs : Int) (hcs : 0 < cs) :
    meterTotalEnergy ((convertRedd sort (some tree)).1 (meterKey house chan)) ms msp (mk' a b) none cs =
      .ok (if inside.length < 2 then []
        else [(if chan = 1 ∨ chan = 2 then .apparent else .active,
          kwhOfSeconds msp (inside.map (fun r => (r.1, f r.2))))]) := by
  rw [redd_table hs hx house chan hh hc file order hf hp hord]
  rw [C112_meter_partial ms msp _ (by split <;> simp) f hlim _ (by
    rw [List.pairwise_map]
    exact hord.imp (fun h => by simp only; omega)) (by rw [List.length_map, hp.length_eq]; exact h2) a b cs hcs]
  have hfil : (order.map (fun r => (r.1 * 1000000000, r.2))).filter (fun r => between a b r.1) =
      inside.map (fun r => (r.1 * 1000000000, r.2)) := by
    rw [List.filter_map, hin]; rfl
  rw [hfil, List.length_map, ← kwh_seconds, List.map_map, List.map_map]
  have hA : acNamed (if chan = 1 ∨ chan = 2 then "apparent" else "active") =
      if chan = 1 ∨ chan = 2 then AC.apparent else AC.active := by split <;> rfl
  rw [hA]
  rfl

/-- C112. A meter with a constant reading has used power times time, whatever the chunk size, if its readings are never further
apart than `max_sample_period` and the power is within the limits. -/
theorem C112_constant_partial {sort : List (Int × Option Rat) → List (Int × Option Rat)} (hs : SortsByTime sort)
    {tree : RawTree (Option Rat)} (hx : ExpectedTree tree) (house chan : Nat) (hh : house ≤ 9) (hc : chan ≤ 99)
    (watts : Rat) (first last : Int) (mid : List Int)
    (hf : ChannelFile tree house chan (asFile ((first :: (mid ++ [last])).map (fun t => (t, watts)))))
    (hord : (first :: (mid ++ [last])).Pairwise (· < ·))
    (ms : List Measurement) (msp : Rat) (f : Rat → Rat)
    (hlim : LimitedBy ms ("power", if chan = 1 ∨ chan = 2 then "apparent" else "active") f) (hw : f watts = watts)
    (hgap : Consecutive (fun s t : Int => ((t - s : Int) : Rat) ≤ msp) (first :: (mid ++ [last])))
    (cs : Int) (hcs : 0 < cs) :
    meterTotalEnergy ((convertRedd sort (some tree)).1 (meterKey house chan)) ms msp TF.blank none cs =
      .ok [(if chan = 1 ∨ chan = 2 then .apparent else .active, watts * (last - first : Int) / 3600000)] := by
  have hb : ∀ t, between none none t = true := fun t => rfl
  have := C112_redd_partial hs hx house chan hh hc _ _ hf (List.Perm.refl _) (by
    rw [List.pairwise_map]; exact hord) (by simp) ms msp f hlim none none _ rfl cs hcs
  rw [List.filter_eq_self.2 (fun r _ => hb _), if_neg (by simp), List.map_map] at this
  refine Eq.trans this ?_
  congr 3
  unfold kwhOfSeconds
  congr 1
  have key : ∀ (l : List Int) (x : Int), Consecutive (fun s t : Int => ((t - s : Int) : Rat) ≤ msp) (x :: l) →
      (((x :: l).map ((fun r : Int × Rat => (r.1, f r.2)) ∘ fun t => (t, watts))).zip
        ((x :: l).map ((fun r : Int × Rat => (r.1, f r.2)) ∘ fun t => (t, watts))).tail |>.map
          (fun p => min ((p.2.1 - p.1.1 : Int) : Rat) msp * p.1.2)).sum = watts * (((x :: l).getLast (by simp) - x : Int) : Rat) := by
    intro l
    induction l with
    | nil => intro x _; simp
    | cons y l ih =>
      intro x h
      cases h with
      | cons _ _ _ h1 h2 =>
        have := ih y h2
        simp only [List.map_cons, List.tail_cons, List.zip_cons_cons, List.sum_cons, Function.comp, hw] at this ⊢
        rw [this, min_eq_left h1, List.getLast_cons (by simp : y :: l ≠ [])]
        push_cast
        ring
  have := key (mid ++ [last]) first hgap
  rw [this]
  simp

theorem kwh_append (msp : Rat) (x : List (Int × Rat)) (r : Int × Rat) (y : List (Int × Rat)) :
    kwhOf msp (x ++ r :: y) = kwhOf msp (x ++ [r]) + kwhOf msp (r :: y) := by
  unfold kwhOf
  rw [← joules_zip, ← joules_zip, ← joules_zip, joules_append]
  ring

/-- C112. Dividing a window at a reading divides the energy: the two parts add up to the whole. -/
theorem C112_windows_add_partial (ms : List Measurement) (msp : Rat) (ac : String)
    (hac : ac = "active" ∨ ac = "apparent" ∨ ac = "reactive") (f : Rat → Rat) (hf : LimitedBy ms ("power", ac) f)
    (pre post : List (Int × Rat)) (r : Int × Rat) (hinc : (pre ++ r :: post).Pairwise (fun x y => x.1 < y.1)) (a b : Option Int)
    (hr : between a b r.1 = true) (hpre : ∃ x ∈ pre, between a none x.1 = true) (hpost : ∃ x ∈ post, between none b x.1 = true)
    (cs : Int) (hcs : 0 < cs) :
    ∃ e1 e2, meterTotalEnergy (some (asTable ac (pre ++ r :: post))) ms msp (mk' a (some r.1)) none cs = .ok [(acNamed ac, e1)] ∧
      meterTotalEnergy (some (asTable ac (pre ++ r :: post))) ms msp (mk' (some r.1) b) none cs = .ok [(acNamed ac, e2)] ∧
      meterTotalEnergy (some (asTable ac (pre ++ r :: post))) ms msp (mk' a b) none cs = .ok [(acNamed ac, e1 + e2)] := by
  obtain ⟨x, hx1, hx2⟩ := hpre
  obtain ⟨y, hy1, hy2⟩ := hpost
  have hl : 2 ≤ (pre ++ r :: post).length := by
    have := List.length_pos_of_mem hx1
    simp only [List.length_append, List.length_cons]; omega
  obtain ⟨_, q2, q3⟩ := List.pairwise_append.1 hinc
  have q4 := (List.pairwise_cons.1 q2).1
  have hra : between a none r.1 = true ∧ between none b r.1 = true := by
    simp only [between, Bool.and_eq_true] at hr ⊢
    exact ⟨⟨hr.1, rfl⟩, rfl, hr.2⟩
  have hsplit : ∀ t, between a b t = (between a none t && between none b t) := by
    intro t; simp [between]
  have f1 : (pre ++ r :: post).filter (fun q => between a (some r.1) q.1) = pre.filter (fun q => between a none q.1) ++ [r] := by
    rw [List.filter_append, List.filter_cons_of_pos]
    · congr 1
      · apply List.filter_congr
        intro q hq
        have := q3 q hq r (by simp)
        simp [between, le_of_lt this]
      · congr 1
        rw [List.filter_eq_nil_iff]
        intro q hq
        have := q4 q hq
        simp [between]
        intro _; omega
    · have := hra.1
      simp only [between, Option.all_none, Bool.and_true] at this
      simp [between, this]
  have f2 : (pre ++ r :: post).filter (fun q => between (some r.1) b q.1) = r :: post.filter (fun q => between none b q.1) := by
    rw [List.filter_append, List.filter_cons_of_pos]
    · have : pre.filter (fun q => between (some r.1) b q.1) = [] := by
        rw [List.filter_eq_nil_iff]
        intro q hq
        have := q3 q hq r (by simp)
        simp only [between, Option.all_some, Bool.and_eq_true, decide_eq_true_eq, not_and]
        intro h; omega
      rw [this, List.nil_append]
      congr 1
      apply List.filter_congr
      intro q hq
      have := q4 q hq
      simp [between, le_of_lt this]
    · have := hra.2
      simp only [between, Option.all_none, Bool.true_and] at this
      simp [between, this]
  have f3 : (pre ++ r :: post).filter (fun q => between a b q.1) =
      pre.filter (fun q => between a none q.1) ++ r :: post.filter (fun q => between none b q.1) := by
    rw [List.filter_append, List.filter_cons_of_pos (p := fun q : Int × Rat => between a b q.1) (by exact hr)]
    congr 1
    · apply List.filter_congr
      intro q hq
      have h1 := q3 q hq r (by simp)
      rw [hsplit]
      have : between none b q.1 = true := by
        have h2 := hra.2
        cases b with
        | none => rfl
        | some b => simp [between] at h2 ⊢; omega
      rw [this, Bool.and_true]
    · congr 1
      apply List.filter_congr
      intro q hq
      have h1 := q4 q hq
      rw [hsplit]
      have : between a none q.1 = true := by
        have h2 := hra.1
        cases a with
        | none => rfl
        | some a => simp [between] at h2 ⊢; omega
      rw [this, Bool.true_and]
  have p1 := List.length_pos_of_mem (List.mem_filter.2 ⟨hx1, hx2⟩ : x ∈ pre.filter (fun q => between a none q.1))
  have p2 := List.length_pos_of_mem (List.mem_filter.2 ⟨hy1, hy2⟩ : y ∈ post.filter (fun q => between none b q.1))
  refine ⟨kwhOf msp ((pre.filter (fun q => between a none q.1) ++ [r]).map (fun r => (r.1, f r.2))),
    kwhOf msp ((r :: post.filter (fun q => between none b q.1)).map (fun r => (r.1, f r.2))), ?_, ?_, ?_⟩
  · rw [C112_meter_partial ms msp ac hac f hf _ hinc hl _ _ cs hcs, f1, if_neg (by simp only [List.length_append, List.length_cons, List.length_nil]; omega)]
  · rw [C112_meter_partial ms msp ac hac f hf _ hinc hl _ _ cs hcs, f2, if_neg (by simp only [List.length_cons]; omega)]
  · rw [C112_meter_partial ms msp ac hac f hf _ hinc hl _ _ cs hcs, f3, if_neg (by simp only [List.length_append, List.length_cons]; omega)]
    simp only [List.map_append, List.map_cons, List.map_nil]
    rw [kwh_append]

/-- C112. A meter without a table is a `KeyError`; a meter with a single reading has no time frame: `ValueError`. -/
theorem C112_no_data (ms : List Measurement) (msp : Rat) (ac : String) (r : Int × Rat) (w : TF) (cs : Int) :
    meterTotalEnergy none ms msp w none cs = .error .keyError ∧
    meterTotalEnergy (some (asTable ac [r])) ms msp w none cs = .error .valueError := by
  refine ⟨rfl, ?_⟩
  have : TF.ctor (some r.1) (some r.1) = .error .valueError := by
    simp [TF.ctor, TF.setStart, TF.setEnd, TF.blank, TF.start, TF.stop]
  unfold meterTotalEnergy
  simp only [statSections, tableTimeframe, asTable, List.map_cons, List.map_nil, List.head?_cons, List.getLast?_singleton, this]

/-- The measurements of a meter of active power up to 10 MW. -/
def exMeasures : List Measurement := [⟨"power", some "active", some 0, some 10000000⟩]

/-- C112, negation for files with a repeated time: the energy is computed in one chunk, but computing it in chunks of one row is a
`ValueError`. -/
theorem C112_repeated_time_counterexample :
    meterTotalEnergy (some ⟨[("power", "active")], [(0, some 3600000), (0, some 3600000), (1000000000, some 0)]⟩) exMeasures 10
      TF.blank none 10 = .ok [(.active, 1)] ∧
    meterTotalEnergy (some ⟨[("power", "active")], [(0, some 3600000), (0, some 3600000), (1000000000, some 0)]⟩) exMeasures 10
      TF.blank none 1 = .error .valueError := by
  constructor <;> decide +kernel

/-- C112, negation for windows divided between two readings: the interval between the readings is in neither part. And
the readings that are loaded do not account for the energy: that at the end of the window is not loaded. -/
theorem C112_window_counterexample :
    let t := asTable "active" [(0, 3600000), (1000000000, 3600000), (2000000000, 3600000), (3000000000, 3600000)]
    meterTotalEnergy (some t) exMeasures 10 (mk' none (some 1500000000)) none 10 = .ok [(.active, 1)] ∧
    meterTotalEnergy (some t) exMeasures 10 (mk' (some 1500000000) none) none 10 = .ok [(.active, 1)] ∧
    meterTotalEnergy (some t) exMeasures 10 TF.blank none 10 = .ok [(.active, 3)] ∧
    meterTotalEnergy (some t) exMeasures 10 (mk' none (some 2000000000)) none 10 = .ok [(.active, 2)] ∧
    (hdfLoad (some t.rows) (mk' none (some 2000000000)) none 0 10).1.out.map Chunk.rows =
      [[(0, some 3600000), (1000000000, some 3600000)]] := by
  refine ⟨?_, ?_, ?_, ?_, ?_⟩ <;> decide +kernel

/-! ### The hypotheses can be met -/

/-- A small dataset. -/
def energyTree : RawTree (Option Rat) :=
  [("house_2".toList, some [("channel_3.dat".toList, some [(7, some 0), (3, some 7200000), (5, some 20000000), (100, some 1)])]),
    ("readme".toList, none)]

theorem energyTree_expected : ExpectedTree energyTree := by
  refine ⟨⟨by decide +kernel, ?_⟩, ?_⟩
  · intro name files h
    simp only [energyTree, List.mem_cons, Prod.mk.injEq, Option.some.injEq, reduceCtorEq, and_false, List.not_mem_nil,
      or_false] at h
    obtain ⟨rfl, rfl⟩ := h
    decide +kernel
  · intro name files h hp
    simp only [energyTree, List.mem_cons, Prod.mk.injEq, Option.some.injEq, reduceCtorEq, and_false, List.not_mem_nil,
      or_false] at h
    obtain ⟨rfl, rfl⟩ := h
    refine ⟨⟨2, by decide, by decide, by decide +kernel⟩, ?_⟩
    intro file rows hf _
    simp only [List.mem_cons, Prod.mk.injEq, Option.some.injEq, List.not_mem_nil, or_false] at hf
    obtain ⟨rfl, rfl⟩ := hf
    exact ⟨by simp, 3, by decide, by decide, by decide +kernel⟩

theorem exMeasures_limited : LimitedBy exMeasures ("power", "active") (fun v => max 0 (min v 10000000)) :=
  ⟨[], _, [], rfl, by simp, rfl, rfl, .inl ⟨0, 10000000, rfl, rfl, by decide +kernel, fun _ => rfl⟩⟩

/-- Of a file out of order: 2 s of 7200 kW, 2 s of what is limited to 10 MW; what is after the window does not count. -/
example {sort : List (Int × Option Rat) → List (Int × Option Rat)} (hs : SortsByTime sort) (cs : Int) (hcs : 0 < cs) :
    meterTotalEnergy ((convertRedd sort (some energyTree)).1 (meterKey 2 3)) exMeasures 10 (mk' none (some 50000000000)) none cs =
      .ok [(.active, 4 + 20000000 / 3600000)] := by
  rw [C112_redd_partial hs energyTree_expected 2 3 (by decide) (by decide)
    [(7, 0), (3, 7200000), (5, 20000000), (100, 1)] [(3, 7200000), (5, 20000000), (7, 0), (100, 1)]
    ⟨[("channel_3.dat".toList, some [(7, some 0), (3, some 7200000), (5, some 20000000), (100, some 1)])], by decide +kernel,
      by decide +kernel⟩ (by decide +kernel) (by decide +kernel) (by decide) exMeasures 10 _
    exMeasures_limited none (some 50000000000) [(3, 7200000), (5, 20000000), (7, 0)] (by decide +kernel) cs hcs]
  decide +kernel

end Nilmtk
