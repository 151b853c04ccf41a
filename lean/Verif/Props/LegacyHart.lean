import Verif.Model.LegacyHart
import Verif.Props.HartDisagg
import Verif.Props.LegacyDisag
import Verif.Props.Labels
import Verif.Props.DataportCsv
import Mathlib.Data.List.Sort
import Mathlib.Data.List.Flatten
/-!
C109: training the old `Hart85` on chunks of mains, and writing its estimates into a store.
-/
namespace Nilmtk
open TF

/-! ### Specification -/

/-- The rows of a chunk without a missing value. -/
def completeRows (k : LoadChunk) : LoadChunk := k.filter (fun r => r.2.all Option.isSome)

/-- Their times. -/
def completeTimes (k : LoadChunk) : List Int := (completeRows k).map Prod.fst

/-- What is reported for one chunk, with the complete rows as numbers: a step is the difference of the means of two steady runs of this
chunk (or of the first one and zero), it is larger than the noise in some column, and the times increase. -/
structure ChunkSteps (m : Nat) (threshold noise : Rat) (k : LoadChunk)
    (r : List (Int × List Rat) × List (Int × List Rat)) : Prop where
  rows : ∃ rows : List PowerRow, rows.map (fun r => (r.1, r.2.map some)) = completeRows k ∧
    List.Forall₂ (fun s t => s.1 = t.1 ∧ (∃ a, s.1 ≤ a ∧ SteadyRun m threshold rows s.2 a) ∧
      ∃ l, t.2 = List.zipWith (fun x y => x - y) s.2 l ∧
        (l = List.replicate m 0 ∨ ∃ a, a < s.1 ∧ SteadyRun m threshold rows l a)) r.1 r.2
  steps : ∀ e ∈ r.2, e.1 ∈ completeTimes k ∧ ∃ x ∈ e.2, noise < |x|
  times : (r.2.map Prod.fst).Pairwise (fun a b => a < b)

/-- The times of a chunk of mains. -/
def PowerChunk.times (k : PowerChunk) : List Int := k.rows.map Prod.fst

/-- The rows of a trace at these times. -/
def traceRows (times : List Int) (trace : List Int) : List (Row (Option Rat)) :=
  List.zip times (trace.map (fun x : Int => some (x : Rat)))

/-! ### Missing values -/

theorem mapM_id_some {α : Type} : ∀ (l : List (Option α)) (xs : List α), l.mapM id = some xs ↔ l = xs.map some
  | [], xs => by
    cases xs <;> simp
  | a :: l, xs => by
    have ih := mapM_id_some l
    cases a with
    | none => cases xs <;> simp [List.mapM_cons]
    | some a =>
      rw [List.mapM_cons]
      cases xs with
      | nil =>
        simp only [id, Option.bind_eq_bind, Option.bind_some, List.map_nil, reduceCtorEq, iff_false]
        cases l.mapM id <;> simp
      | cons x xs =>
        have := ih xs
        simp only [id, Option.bind_eq_bind, Option.bind_some, List.map_cons, List.cons.injEq, Option.some.injEq]
        cases h : l.mapM id with
        | none => rw [show (id : Option α → Option α) = id from rfl] at h; rw [h] at this; simp at this; simp [this]
        | some ys =>
          rw [h, Option.some.injEq] at this
          simp [this]

theorem dropMissing_complete (k : LoadChunk) : (dropMissing k).map (fun r => (r.1, r.2.map some)) = completeRows k := by
  induction k with
  | nil => rfl
  | cons r k ih =>
    unfold dropMissing completeRows at ih ⊢
    rw [List.filterMap_cons, List.filter_cons]
    cases h : r.2.mapM id with
    | none =>
      have : ¬ r.2.all Option.isSome = true := by
        intro hall
        have : ∃ xs : List Rat, r.2 = xs.map some := by
          clear h ih
          obtain ⟨t, l⟩ := r
          simp only at hall ⊢
          induction l with
          | nil => exact ⟨[], rfl⟩
          | cons a l ih =>
            rw [List.all_cons, Bool.and_eq_true] at hall
            obtain ⟨xs, rfl⟩ := ih hall.2
            obtain ⟨x, rfl⟩ := Option.isSome_iff_exists.1 hall.1
            exact ⟨x :: xs, rfl⟩
        obtain ⟨xs, hxs⟩ := this
        rw [(mapM_id_some _ _).2 hxs] at h
        cases h
      simp only [Option.map_none, ih, this]
      rfl
    | some xs =>
      have hr := (mapM_id_some _ _).1 h
      have : r.2.all Option.isSome = true := by rw [hr]; simp
      simp only [Option.map_some, List.map_cons, ih, this, if_true, ← hr]

theorem dropMissing_times (k : LoadChunk) : (dropMissing k).map Prod.fst = completeTimes k := by
  rw [completeTimes, ← dropMissing_complete, List.map_map]
  rfl

theorem dropMissing_nil (k : LoadChunk) : dropMissing k = [] ↔ completeRows k = [] := by
  rw [← dropMissing_complete, List.map_eq_nil_iff]

/-! ### The steps of all chunks -/

theorem transientLoop_ok (m : Nat) (threshold noise : Rat) (ks : List LoadChunk) :
    ∀ acc l, transientLoop m threshold noise ks acc = .ok l → ∃ rs, l = acc ++ rs ∧
      List.Forall₂ (fun k r => findSteadyStates m threshold noise (dropMissing k) = .ok r)
        (ks.filter (fun k => decide (completeRows k ≠ []))) rs := by
  induction ks with
  | nil =>
    intro acc l h
    simp only [transientLoop, Except.ok.injEq] at h
    exact ⟨[], by simp [h], List.Forall₂.nil⟩
  | cons k ks ih =>
    intro acc l h
    rw [transientLoop] at h
    by_cases hk : dropMissing k = []
    · rw [if_pos hk] at h
      obtain ⟨rs, h1, h2⟩ := ih _ _ h
      refine ⟨rs, h1, ?_⟩
      rw [List.filter_cons, if_neg (by simpa using (dropMissing_nil k).1 hk)]
      exact h2
    · rw [if_neg hk] at h
      cases hf : findSteadyStates m threshold noise (dropMissing k) with
      | error e => rw [hf] at h; cases h
      | ok r =>
        rw [hf] at h
        obtain ⟨rs, h1, h2⟩ := ih _ _ h
        refine ⟨r :: rs, by rw [h1]; simp, ?_⟩
        rw [List.filter_cons, if_pos (by simpa using fun hc => hk ((dropMissing_nil k).2 hc))]
        exact List.Forall₂.cons hf h2

theorem findTransients_ok {m : Nat} {threshold noise : Rat} {chunks : Gen LoadChunk} {st tr : List (Int × List Rat)}
    (h : findTransients m threshold noise chunks = .ok (st, tr)) : chunks.err = none ∧ ∃ rs, rs ≠ [] ∧
      st = rs.flatMap Prod.fst ∧ tr = rs.flatMap Prod.snd ∧
      List.Forall₂ (fun k r => findSteadyStates m threshold noise (dropMissing k) = .ok r)
        (chunks.out.filter (fun k => decide (completeRows k ≠ []))) rs := by
  unfold findTransients at h
  cases hl : transientLoop m threshold noise chunks.out [] with
  | error e => rw [hl] at h; cases h
  | ok l =>
    rw [hl] at h
    cases he : chunks.err with
    | some e => rw [he] at h; cases h
    | none =>
      rw [he] at h
      simp only at h
      split at h
      · cases h
      · rename_i hne
        obtain ⟨rs, h1, h2⟩ := transientLoop_ok _ _ _ _ _ _ hl
        rw [List.nil_append] at h1
        subst h1
        simp only [Except.ok.injEq, Prod.mk.injEq] at h
        exact ⟨rfl, l, hne, h.1.symm, h.2.symm, h2⟩

theorem chunkSteps_of {m : Nat} {threshold noise : Rat} (hn : 0 ≤ noise) {k : LoadChunk}
    {r : List (Int × List Rat) × List (Int × List Rat)} (hlen : ∀ x ∈ k, x.2.length = m)
    (hinc : (completeTimes k).Pairwise (fun a b => a < b))
    (h : findSteadyStates m threshold noise (dropMissing k) = .ok r) : ChunkSteps m threshold noise k r := by
  obtain ⟨st, tr⟩ := r
  have hp : (dropMissing k).Pairwise (fun (a b : PowerRow) => a.1 < b.1) := by
    rw [← dropMissing_times, List.pairwise_map] at hinc
    exact hinc
  have hl : ∀ r ∈ dropMissing k, r.2.length = m := by
    intro r hr
    have hmem : (r.1, r.2.map some) ∈ completeRows k := by
      rw [← dropMissing_complete]; exact List.mem_map.2 ⟨r, hr, rfl⟩
    have := hlen _ (List.mem_of_mem_filter hmem)
    simpa using this
  obtain ⟨h1, h2⟩ := C48_meaning m threshold noise hn _ st tr hl hp h
  obtain ⟨_, _, _, h3⟩ := C48_reported_partial m threshold noise _ st tr (hp.imp le_of_lt) h
  refine ⟨⟨dropMissing k, dropMissing_complete k, h2⟩, ?_, h1⟩
  intro e he
  obtain ⟨⟨r, hr, hr'⟩, h4⟩ := h3 e he
  refine ⟨?_, h4⟩
  rw [← dropMissing_times]
  exact List.mem_map.2 ⟨r, hr, hr'⟩

theorem sublist_of_increasing {a b : List Int} (ha : a.Pairwise (fun x y => x < y)) (hb : b.Pairwise (fun x y => x < y))
    (h : ∀ x ∈ a, x ∈ b) : a.Sublist b := by
  have hs : List.Subperm a b := List.subperm_of_subset (ha.imp ne_of_lt) h
  exact List.sublist_of_subperm_of_pairwise (r := (· ≤ ·)) hs (ha.imp le_of_lt) (hb.imp le_of_lt)

/-- C109. If steps are reported for chunks with increasing times, they are those of the chunks with a complete reading, one after the
other; for each chunk they are steps between its own steady runs. All times increase and are times of readings. -/
theorem C109_steps {m : Nat} {threshold noise : Rat} (hn : 0 ≤ noise) {chunks : Gen LoadChunk} {st tr : List (Int × List Rat)}
    (hlen : ∀ k ∈ chunks.out, ∀ x ∈ k, x.2.length = m)
    (hinc : (chunks.out.flatMap completeTimes).Pairwise (fun a b => a < b))
    (h : findTransients m threshold noise chunks = .ok (st, tr)) :
    chunks.err = none ∧ (∃ k ∈ chunks.out, completeRows k ≠ []) ∧
    (∃ rs, st = rs.flatMap Prod.fst ∧ tr = rs.flatMap Prod.snd ∧
      List.Forall₂ (ChunkSteps m threshold noise) (chunks.out.filter (fun k => decide (completeRows k ≠ []))) rs) ∧
    (tr.map Prod.fst).Sublist (chunks.out.flatMap completeTimes) ∧ ∀ e ∈ tr, ∃ x ∈ e.2, noise < |x| := by
  obtain ⟨he, rs, hne, rfl, rfl, hf⟩ := findTransients_ok h
  have hinck : ∀ k ∈ chunks.out, (completeTimes k).Pairwise (fun a b => a < b) := by
    intro k hk
    rw [List.pairwise_flatMap] at hinc
    exact hinc.1 k hk
  have hsteps : List.Forall₂ (ChunkSteps m threshold noise) (chunks.out.filter (fun k => decide (completeRows k ≠ []))) rs := by
    have hmem : ∀ k ∈ chunks.out.filter (fun k => decide (completeRows k ≠ [])), k ∈ chunks.out :=
      fun k hk => List.mem_of_mem_filter hk
    clear hne h
    generalize chunks.out.filter (fun k => decide (completeRows k ≠ [])) = ks at hf hmem
    induction hf with
    | nil => exact List.Forall₂.nil
    | @cons k r ks rs h1 _ ih =>
      have hk := hmem k List.mem_cons_self
      exact List.Forall₂.cons (chunkSteps_of hn (hlen k hk) (hinck k hk) h1)
        (ih (fun x hx => hmem x (List.mem_cons_of_mem _ hx)))
  refine ⟨he, ?_, ⟨rs, rfl, rfl, hsteps⟩, ?_, ?_⟩
  · cases hsteps' : chunks.out.filter (fun k => decide (completeRows k ≠ [])) with
    | nil =>
      rw [hsteps'] at hsteps
      cases hsteps
      exact absurd rfl hne
    | cons k ks =>
      have hk : k ∈ chunks.out.filter (fun k => decide (completeRows k ≠ [])) := by rw [hsteps']; exact List.mem_cons_self
      rw [List.mem_filter] at hk
      exact ⟨k, hk.1, by simpa using hk.2⟩
  · have hsub : ((chunks.out.filter (fun k => decide (completeRows k ≠ []))).flatMap completeTimes).Sublist
        (chunks.out.flatMap completeTimes) := List.Sublist.flatMap List.filter_sublist _
    refine List.Sublist.trans ?_ hsub
    have hinc' : ∀ k ∈ chunks.out.filter (fun k => decide (completeRows k ≠ [])),
        (completeTimes k).Pairwise (fun a b => a < b) := fun k hk => hinck k (List.mem_of_mem_filter hk)
    clear hf hsub hne h he
    generalize chunks.out.filter (fun k => decide (completeRows k ≠ [])) = ks at hsteps hinc'
    induction hsteps with
    | nil => exact List.Sublist.refl _
    | @cons k r ks rs h1 _ ih =>
      rw [List.flatMap_cons, List.flatMap_cons, List.map_append]
      refine List.Sublist.append ?_ (ih (fun x hx => hinc' x (List.mem_cons_of_mem _ hx)))
      refine sublist_of_increasing h1.times (hinc' k List.mem_cons_self) ?_
      intro x hx
      obtain ⟨e, he, rfl⟩ := List.mem_map.1 hx
      exact (h1.steps e he).1
  · intro e he'
    obtain ⟨r, hr, her⟩ := List.mem_flatMap.1 he'
    obtain ⟨k, _, hk⟩ := forall₂_mem_right hsteps hr
    exact (hk.steps e her).2

/-! ### A chunk without a step -/

theorem steady_error {m : Nat} (hm : m < 3) {threshold noise : Rat} {rows : List PowerRow} {e : Err}
    (h : findSteadyStates m threshold noise rows = .error e) : e = .indexError := by
  unfold findSteadyStates at h
  split at h
  · cases h; rfl
  · rw [if_neg (by omega)] at h
    simp only at h
    split at h
    · split at h <;> cases h
    · cases h; rfl

theorem transientLoop_raises {m : Nat} (hm : m < 3) {threshold noise : Rat} {k : LoadChunk} (hk : completeRows k ≠ []) {e : Err}
    (hf : findSteadyStates m threshold noise (dropMissing k) = .error e) (ks : List LoadChunk) (hmem : k ∈ ks) :
    ∀ acc, transientLoop m threshold noise ks acc = .error .indexError := by
  induction ks with
  | nil => cases hmem
  | cons j ks ih =>
    intro acc
    rw [transientLoop]
    rcases List.mem_cons.1 hmem with rfl | hmem
    · rw [if_neg (fun hc => hk ((dropMissing_nil k).1 hc)), hf]
      simp only
      rw [steady_error hm hf]
    · by_cases hj : dropMissing j = []
      · rw [if_pos hj]; exact ih hmem acc
      · rw [if_neg hj]
        cases hg : findSteadyStates m threshold noise (dropMissing j) with
        | error e' => simp only; rw [steady_error hm hg]
        | ok r => exact ih hmem _

/-- C109. One chunk that has complete readings, all near zero (their spread, with zero, is at most the noise level), makes the search
for steps raise `IndexError`, whatever the other chunks are: training raises it and leaves the model as it was, and so does
disaggregating, before anything is stored. -/
theorem C109_quiet_raises {threshold noise lo hi : Rat} {chunks : Gen LoadChunk} {k : LoadChunk} (hk : k ∈ chunks.out)
    (hc : completeRows k ≠ []) (hlo : lo ≤ 0) (hhi : 0 ≤ hi) (hd : hi - lo ≤ noise)
    (hr : ∀ r ∈ completeRows k, ∀ x, some x ∈ r.2 → lo ≤ x ∧ x ≤ hi) :
    (∀ m, m < 3 → findTransients m threshold noise chunks = .error .indexError) ∧
    (∀ prm meanShift (h : LegacyHart), (h.train prm meanShift threshold noise chunks).2 = .error .indexError ∧
      (h.train prm meanShift threshold noise chunks).1.centroids = h.centroids ∧
      (h.train prm meanShift threshold noise chunks).1.trained = h.trained) ∧
    ∀ (h : LegacyHart) sp b series mains store, h.trained = true → h.threshold = threshold → h.noise = noise →
      h.disaggregate sp b chunks series mains store = (store, .error .indexError) := by
  have hall : ∀ m, m < 3 → findTransients m threshold noise chunks = .error .indexError := by
    intro m hm
    have hf : findSteadyStates m threshold noise (dropMissing k) = .error .indexError := by
      refine C48_no_event_raises m hm threshold noise lo hi _ hlo hhi hd ?_
      intro r hr' x hx
      refine hr (r.1, r.2.map some) ?_ x (List.mem_map.2 ⟨x, hx, rfl⟩)
      rw [← dropMissing_complete]
      exact List.mem_map.2 ⟨r, hr', rfl⟩
    unfold findTransients
    rw [transientLoop_raises hm hc hf chunks.out hk]
  refine ⟨hall, ?_, ?_⟩
  · intro prm meanShift h
    unfold LegacyHart.train legacyEdges
    rw [hall 1 (by omega)]
    exact ⟨rfl, rfl, rfl⟩
  · rintro h sp b series mains store ht rfl rfl
    unfold LegacyHart.disaggregate legacyEdges
    rw [if_neg (by rw [ht]; simp), hall 1 (by omega)]

/-- Not even one complete reading: `ValueError`. -/
theorem C109_nothing_raises {threshold noise : Rat} {m : Nat} {chunks : Gen LoadChunk} (he : chunks.err = none)
    (hc : ∀ k ∈ chunks.out, completeRows k = []) : findTransients m threshold noise chunks = .error .valueError := by
  have : ∀ (ks : List LoadChunk) acc, (∀ k ∈ ks, completeRows k = []) → transientLoop m threshold noise ks acc = .ok acc := by
    intro ks
    induction ks with
    | nil => intro acc _; rfl
    | cons k ks ih =>
      intro acc h
      rw [transientLoop, if_pos ((dropMissing_nil k).2 (h k List.mem_cons_self))]
      exact ih acc (fun x hx => h x (List.mem_cons_of_mem _ hx))
  unfold findTransients
  rw [this _ _ hc, he]
  rfl

/-- With the readings of the two chunks the hypotheses of `C109_quiet_raises` are met. -/
example : findTransients 1 15 70 ⟨[[(0, [some 0]), (1, [none]), (2, [some 500]), (3, [some 0])], [(4, [some 5]), (5, [some 3])]], none⟩ =
    .error .indexError :=
  (C109_quiet_raises (lo := 0) (hi := 5) (k := [(4, [some 5]), (5, [some 3])]) (by simp) (by decide) (by decide) (by decide)
    (by decide +kernel) (by
      intro r hr x hx
      rw [show completeRows [(4, [some 5]), (5, [some 3])] = [(4, [some 5]), (5, [some 3])] by decide +kernel] at hr
      simp only [List.mem_cons, List.not_mem_nil, or_false] at hr
      rcases hr with rfl | rfl <;> simp only [List.mem_singleton, Option.some.injEq] at hx <;> rw [hx] <;> decide +kernel)).1 1
    (by decide)

/-! ### Training -/

theorem legacyEdges_spec {threshold noise : Rat} (hn : 0 ≤ noise) {chunks : Gen LoadChunk}
    (hlen : ∀ k ∈ chunks.out, ∀ x ∈ k, x.2.length = 1)
    (hinc : (chunks.out.flatMap completeTimes).Pairwise (fun a b => a < b)) {tr : List (Int × Rat)}
    (h : legacyEdges threshold noise chunks = .ok tr) :
    (∃ st, findTransients 1 threshold noise chunks = .ok (st, tr.map (fun e => (e.1, [e.2])))) ∧
    (tr.map Prod.fst).Sublist (chunks.out.flatMap completeTimes) ∧ ∀ e ∈ tr, noise < |e.2| := by
  unfold legacyEdges at h
  split at h
  · cases h
  · rename_i st tr' hf
    rw [Except.ok.injEq] at h
    subst h
    obtain ⟨_, _, ⟨rs, _, h2, h3⟩, h4, h5⟩ := C109_steps hn hlen hinc hf
    have hone : ∀ e ∈ tr', [e.2.headD 0] = e.2 := by
      intro e he
      have hle : e.2.length ≤ 1 := by
        rw [h2] at he
        obtain ⟨r, hr, her⟩ := List.mem_flatMap.1 he
        obtain ⟨k, _, hk⟩ := forall₂_mem_right h3 hr
        obtain ⟨rows, _, hrows⟩ := hk.rows
        obtain ⟨s, _, _, ⟨_, _, _, _, _, _, _, _, _, _, _, hm⟩, l, hl, _⟩ := forall₂_mem_right hrows her
        rw [hl, List.length_zipWith]
        have := hm.1
        omega
      obtain ⟨x, hx, _⟩ := h5 e he
      match e.2, hle, hx with
      | [y], _, _ => rfl
    refine ⟨⟨st, ?_⟩, ?_, ?_⟩
    · rw [hf, List.map_map]
      congr 2
      conv_lhs => rw [← List.map_id tr']
      apply List.map_congr_left
      intro e he
      simp only [Function.comp_apply, id]
      rw [hone e he]
    · rw [List.map_map]; exact h4
    · intro e he
      obtain ⟨q, hq, rfl⟩ := List.mem_map.1 he
      obtain ⟨x, hx, hxn⟩ := h5 q hq
      rw [← hone q hq, List.mem_singleton] at hx
      rw [← hx]
      exact hxn

/-- C109. If training succeeds, the powers learnt are what `MeanShift` makes of the mean sizes of pairs of steps found in the
chunks: each pair is valid, no step is used twice, and if the buffer is large enough no valid pair is left over. -/
theorem C109_train (prm : HartParams) (meanShift : List Rat → Except Err (List Rat)) (h h' : LegacyHart) {threshold noise : Rat}
    (hn : 0 ≤ noise) {chunks : Gen LoadChunk} (hlen : ∀ k ∈ chunks.out, ∀ x ∈ k, x.2.length = 1)
    (hinc : (chunks.out.flatMap completeTimes).Pairwise (fun a b => a < b))
    (hok : h.train prm meanShift threshold noise chunks = (h', .ok ())) :
    h'.trained = true ∧ h'.threshold = threshold ∧ h'.noise = noise ∧
    ∃ st steps, ∃ pairs : List (Transition × Transition), findTransients 1 threshold noise chunks = .ok (st, steps) ∧ steps ≠ [] ∧
      (∀ pr ∈ pairs, (pr.1.time, [pr.1.p]) ∈ steps ∧ (pr.2.time, [pr.2.p]) ∈ steps ∧ ValidPair prm pr.1 pr.2) ∧
      (pairs.flatMap (fun pr => [pr.1.time, pr.2.time])).Nodup ∧
      (steps.length ≤ prm.bufferSize → ∀ t x u y, (t, [x]) ∈ steps → (u, [y]) ∈ steps →
        t ∉ pairs.flatMap (fun pr => [pr.1.time, pr.2.time]) → u ∉ pairs.flatMap (fun pr => [pr.1.time, pr.2.time]) →
        ¬ ValidPair prm ⟨t, x, none⟩ ⟨u, y, none⟩) ∧
      meanShift (pairs.map (fun pr => (|pr.1.p| + |pr.2.p|) / 2)) = .ok h'.centroids := by
  unfold LegacyHart.train at hok
  cases he : legacyEdges threshold noise chunks with
  | error e => rw [he] at hok; simp at hok
  | ok tr =>
    rw [he] at hok
    simp only at hok
    by_cases htr : tr = []
    · rw [if_pos htr] at hok; simp at hok
    · rw [if_neg htr] at hok
      obtain ⟨⟨st, h1⟩, h2, _⟩ := legacyEdges_spec hn hlen hinc he
      have hts : IncTimes (tr.map (fun e => (⟨e.1, e.2, none⟩ : Transition))) := by
        unfold IncTimes
        rw [List.pairwise_map]
        have := hinc.sublist h2
        rw [List.pairwise_map] at this
        exact this
      cases hms : meanShift ((hartPair prm (tr.map (fun e => ⟨e.1, e.2, none⟩))).pairs.map pairFeature) with
      | error e => rw [hms] at hok; simp at hok
      | ok cs =>
        rw [hms] at hok
        simp only [Prod.mk.injEq, and_true] at hok
        subst hok
        have hmem : ∀ q : Transition, q ∈ tr.map (fun e => (⟨e.1, e.2, none⟩ : Transition)) →
            (q.time, [q.p]) ∈ tr.map (fun e => (e.1, [e.2])) := by
          intro q hq
          obtain ⟨e, hem, rfl⟩ := List.mem_map.1 hq
          exact List.mem_map.2 ⟨e, hem, rfl⟩
        have hmem' : ∀ t x, (t, [x]) ∈ tr.map (fun e => (e.1, [e.2])) →
            (⟨t, x, none⟩ : Transition) ∈ tr.map (fun e => (⟨e.1, e.2, none⟩ : Transition)) := by
          intro t x hx
          obtain ⟨e, hem, heq⟩ := List.mem_map.1 hx
          simp only [Prod.mk.injEq, List.cons.injEq, and_true] at heq
          exact List.mem_map.2 ⟨e, hem, by rw [heq.1, heq.2]⟩
        refine ⟨rfl, rfl, rfl, st, _, (hartPair prm (tr.map (fun e : Int × Rat => (⟨e.1, e.2, none⟩ : Transition)))).pairs, h1, by simpa using htr, ?_,
          C47_pairs_disjoint prm _ hts, ?_, hms⟩
        · intro pr hpr
          obtain ⟨a1, a2, a3⟩ := C47_pairs_valid prm _ hts pr hpr
          exact ⟨hmem _ a1, hmem _ a2, a3⟩
        · intro hbuf t x u y ht hu ht' hu'
          refine C47_maximal prm _ hts (by simpa using hbuf) _ _ (hmem' t x ht) (hmem' u y hu) ?_ ?_
          · intro pr hpr
            constructor
            · intro hc
              exact ht' (List.mem_flatMap.2 ⟨pr, hpr, by rw [hc]; simp⟩)
            · intro hc
              exact ht' (List.mem_flatMap.2 ⟨pr, hpr, by rw [hc]; simp⟩)
          · intro pr hpr
            constructor
            · intro hc
              exact hu' (List.mem_flatMap.2 ⟨pr, hpr, by rw [hc]; simp⟩)
            · intro hc
              exact hu' (List.mem_flatMap.2 ⟨pr, hpr, by rw [hc]; simp⟩)

/-- C109. If training raises, what was learnt before is still there. -/
theorem C109_train_fails (prm : HartParams) (meanShift : List Rat → Except Err (List Rat)) (h h' : LegacyHart) {threshold noise : Rat}
    {chunks : Gen LoadChunk} {e : Err} (hok : h.train prm meanShift threshold noise chunks = (h', .error e)) :
    h'.centroids = h.centroids ∧ h'.trained = h.trained := by
  unfold LegacyHart.train at hok
  split at hok
  · cases hok; exact ⟨rfl, rfl⟩
  · split at hok
    · cases hok; exact ⟨rfl, rfl⟩
    · split at hok <;> cases hok
      exact ⟨rfl, rfl⟩

/-! ### Writing the estimates -/

/-- The calls that store the traces of one chunk; `n` counts the devices. -/
def traceCalls (b : Nat) (times : List Int) (ts : List (List Int)) (n : Nat) : List (HCall OutMd (Option Rat)) :=
  (ts.zipIdx n).map (fun e => .append (outMeterKey b (e.2 + 2)) (traceRows times e.1))

theorem appendTraces_spec (b : Nat) (times : List Int) (ts : List (List Int)) :
    ∀ (n : Nat) (s : LegacyHartState), ∃ s', appendTraces b times ts n s = (s', .ok ()) ∧
      s'.store = hdfRun (traceCalls b times ts n) s.store ∧ s'.timeframes = s.timeframes ∧ s'.measurement = s.measurement ∧
      s'.power = s.power ∧ (ts ≠ [] ∨ s.available = true → s'.available = true) := by
  induction ts with
  | nil =>
    intro n s
    exact ⟨s, rfl, rfl, rfl, rfl, rfl, fun h => h.resolve_left (fun h => h rfl)⟩
  | cons t ts ih =>
    intro n s
    rw [appendTraces]
    simp only [run_one_append]
    obtain ⟨s', h1, h2, h3, h4, h5, h6⟩ := ih (n + 1) { s with
      available := true, store := hdfRun [.append (outMeterKey b (n + 2)) (traceRows times t)] s.store }
    refine ⟨s', h1, ?_, h3, h4, h5, fun _ => h6 (Or.inr rfl)⟩
    rw [h2, traceCalls, traceCalls, List.zipIdx_cons, List.map_cons, ← hdfRun_append]
    rfl

theorem markTransients_length (cs : List Rat) (index : List Int) : ∀ (tr : List (Int × Rat)) (st st' : List (List Int)),
    markTransients cs index tr st = .ok st' → st'.length = st.length
  | [], st, st', h => by simp only [markTransients, Except.ok.injEq] at h; rw [h]
  | (t, v) :: rest, st, st', h => by
    have ih := markTransients_length cs index rest
    simp only [markTransients] at h
    split at h
    · split at h
      · exact ih _ _ h
      · split at h
        · exact ih _ _ h
        · split at h
          · cases h
          · split at h
            · rw [ih _ _ h, setState, List.length_modify]
            · cases h
    · cases h

theorem hartTraces_length {cs : List Rat} {index : List Int} {tr : List (Int × Rat)} {ts : List (List Int)}
    (h : hartTraces cs index tr = .ok ts) : ts.length = cs.length := by
  unfold hartTraces at h
  split at h
  · cases h
  · rename_i st hst
    split at h
    · cases h
    · split at h
      · cases h
      · have hl := markTransients_length cs _ tr _ st hst
        rw [Except.ok.injEq] at h
        rw [← h, List.length_zipWith, hl, List.length_map, min_self]

/-- The calls that store the traces of all chunks. -/
def hartCalls (b : Nat) : List PowerChunk → List (List (List Int)) → List (HCall OutMd (Option Rat))
  | k :: ks, ts :: tss => traceCalls b k.times ts 0 ++ hartCalls b ks tss
  | _, _ => []

theorem legacyHartLoop_spec (b : Nat) (cs : List Rat) (hcs : cs ≠ []) (tr : List (Int × Rat)) (ks : List PowerChunk)
    (tss : List (List (List Int))) (hf : List.Forall₂ (fun k ts => hartTraces cs k.times tr = .ok ts) ks tss) :
    ∀ s : LegacyHartState, ∃ s', legacyHartLoop b cs tr ks s = (s', .ok ()) ∧
      s'.store = hdfRun (hartCalls b ks tss) s.store ∧ s'.timeframes = s.timeframes ++ ks.map PowerChunk.frame ∧
      s'.measurement = (ks.getLast?.map PowerChunk.measurement).or s.measurement ∧
      s'.power = ((List.zipWith (fun k ts => (k.times, ts)) ks tss).getLast?).or s.power ∧
      (ks ≠ [] ∨ s.available = true → s'.available = true) := by
  induction hf with
  | nil =>
    intro s
    exact ⟨s, rfl, rfl, by simp, by simp, by simp, fun h => h.resolve_left (fun h => h rfl)⟩
  | @cons k ts ks tss h1 _ ih =>
    intro s
    rw [legacyHartLoop]
    rw [PowerChunk.times] at h1
    simp only [h1]
    obtain ⟨s₁, a1, a2, a3, a4, a5, a6⟩ := appendTraces_spec b (k.rows.map Prod.fst) ts 0 { s with
      timeframes := s.timeframes ++ [k.frame], measurement := some k.measurement, power := some (k.rows.map Prod.fst, ts) }
    rw [a1]
    obtain ⟨s₂, b1, b2, b3, b4, b5, b6⟩ := ih s₁
    refine ⟨s₂, b1, ?_, ?_, ?_, ?_, ?_⟩
    · rw [b2, a2, hartCalls, hdfRun_append]
      rfl
    · rw [b3, a3]; simp
    · rw [b4, a4]
      cases ks with
      | nil => rfl
      | cons k' ks =>
        rw [List.getLast?_cons_cons]
        rw [List.getLast?_eq_some_getLast (by simp : k' :: ks ≠ [])]
        rfl
    · rw [b5, a5]
      cases hz : List.zipWith (fun (k : PowerChunk) ts => (k.times, ts)) ks tss with
      | nil => rw [List.zipWith_cons_cons, hz]; rfl
      | cons z zs =>
        rw [List.zipWith_cons_cons, hz, List.getLast?_cons_cons, List.getLast?_eq_some_getLast (by simp : z :: zs ≠ [])]
        rfl
    · intro _
      apply b6
      right
      apply a6
      left
      intro hts
      have := hartTraces_length h1
      rw [hts, List.length_nil, eq_comm, List.length_eq_zero_iff] at this
      exact hcs this

theorem rowsAppended_meter (b m m' : Nat) (df : List (Row (Option Rat))) :
    rowsAppended (hdfComponents (outMeterKey b m)) (HCall.append (outMeterKey b m') df : HCall OutMd (Option Rat)) =
      if m' = m then df else [] := by
  simp only [rowsAppended]
  by_cases h : m' = m
  · subst h; simp
  · rw [if_neg h, if_neg (fun hc => h (outMeterKey_inj hc).2)]

theorem traceCalls_rows (b : Nat) (times : List Int) (ts : List (List Int)) : ∀ n m,
    ((traceCalls b times ts n).map (rowsAppended (hdfComponents (outMeterKey b (m + 2))))).flatten =
      if n ≤ m then traceRows times (ts.getD (m - n) []) else [] := by
  induction ts with
  | nil => intro n m; simp [traceCalls, traceRows]
  | cons t ts ih =>
    intro n m
    have h1 : traceCalls b times (t :: ts) n =
        .append (outMeterKey b (n + 2)) (traceRows times t) :: traceCalls b times ts (n + 1) := rfl
    rw [h1, List.map_cons, List.flatten_cons, ih, rowsAppended_meter]
    by_cases h : n = m
    · subst h
      simp
    · rw [if_neg (by omega), List.nil_append]
      by_cases hle : n ≤ m
      · rw [if_pos (by omega), if_pos hle]
        have : m - n = (m - (n + 1)) + 1 := by omega
        rw [this, List.getD_cons_succ]
      · rw [if_neg (by omega), if_neg hle]

theorem traceCalls_low (b : Nat) (times : List Int) (ts : List (List Int)) (n m : Nat) (hm : m < 2) :
    ((traceCalls b times ts n).map (rowsAppended (hdfComponents (outMeterKey b m)))).flatten = [] := by
  rw [List.flatten_eq_nil_iff]
  intro l hl
  obtain ⟨c, hc, rfl⟩ := List.mem_map.1 hl
  obtain ⟨e, _, rfl⟩ := List.mem_map.1 hc
  rw [rowsAppended_meter, if_neg (by omega)]

theorem hartCalls_rows (b m : Nat) : ∀ (ks : List PowerChunk) (tss : List (List (List Int))),
    ((hartCalls b ks tss).map (rowsAppended (hdfComponents (outMeterKey b (m + 2))))).flatten =
      (List.zipWith (fun k ts => traceRows k.times (ts.getD m [])) ks tss).flatten
  | [], _ => by simp [hartCalls]
  | _ :: _, [] => by simp [hartCalls]
  | k :: ks, ts :: tss => by
    rw [hartCalls, List.map_append, List.flatten_append, traceCalls_rows, if_pos (Nat.zero_le m), hartCalls_rows b m ks tss,
      List.zipWith_cons_cons, List.flatten_cons, Nat.sub_zero]

theorem hartCalls_low (b m : Nat) (hm : m < 2) : ∀ (ks : List PowerChunk) (tss : List (List (List Int))),
    ((hartCalls b ks tss).map (rowsAppended (hdfComponents (outMeterKey b m)))).flatten = []
  | [], _ => by simp [hartCalls]
  | _ :: _, [] => by simp [hartCalls]
  | k :: ks, ts :: tss => by
    rw [hartCalls, List.map_append, List.flatten_append, traceCalls_low b _ _ _ m hm, hartCalls_low b m hm ks tss]
    rfl

theorem hartCalls_kind (b n : Nat) : ∀ (ks : List PowerChunk) (tss : List (List (List Int))), (∀ ts ∈ tss, ts.length = n) →
    ∀ c ∈ hartCalls b ks tss, ∃ m df, c = .append (outMeterKey b m) df ∧ 2 ≤ m ∧ m < n + 2
  | [], _, _, c, hc => by simp [hartCalls] at hc
  | _ :: _, [], _, c, hc => by simp [hartCalls] at hc
  | k :: ks, ts :: tss, hl, c, hc => by
    rw [hartCalls, List.mem_append] at hc
    rcases hc with hc | hc
    · obtain ⟨e, he, rfl⟩ := List.mem_map.1 hc
      have := List.snd_lt_of_mem_zipIdx he
      have hlen := hl ts List.mem_cons_self
      exact ⟨e.2 + 2, _, rfl, by omega, by omega⟩
    · exact hartCalls_kind b n ks tss (fun x hx => hl x (List.mem_cons_of_mem _ hx)) c hc

/-! ### Disaggregating -/

/-- The old object has learnt something, and the readings it searches for steps are among the readings it disaggregates: the times of the
chunks of `mains.power_series` increase and none of these chunks is empty; the times of the complete rows of `mains.load` are
among them; the steps found are `tr`. -/
structure Prepared (h : LegacyHart) (loaded : Gen LoadChunk) (series : List PowerChunk) (tr : List (Int × Rat)) : Prop where
  trained : h.trained = true
  learnt : h.centroids ≠ []
  noise : 0 ≤ h.noise
  one : ∀ k ∈ loaded.out, ∀ x ∈ k, x.2.length = 1
  filled : ∀ k ∈ series, k.rows ≠ []
  increasing : (series.flatMap PowerChunk.times).Pairwise (fun a b => a < b)
  among : (loaded.out.flatMap completeTimes).Sublist (series.flatMap PowerChunk.times)
  steps : legacyEdges h.threshold h.noise loaded = .ok tr
  some : tr ≠ []

theorem increasing_chunk : ∀ (ks : List PowerChunk), (ks.flatMap PowerChunk.times).Pairwise (fun a b => a < b) → ∀ k ∈ ks, ∀ j ∈ ks,
    ∀ t ∈ j.times, t ∈ k.times ∨ (∀ u ∈ k.times, t < u) ∨ ∀ u ∈ k.times, u < t := by
  intro ks h
  induction ks with
  | nil => intro k hk; cases hk
  | cons i ks ih =>
    rw [List.flatMap_cons, List.pairwise_append] at h
    obtain ⟨_, h2, h3⟩ := h
    intro k hk j hj t ht
    rcases List.mem_cons.1 hk with rfl | hk'
    · rcases List.mem_cons.1 hj with rfl | hj
      · exact Or.inl ht
      · exact Or.inr (Or.inr (fun u hu => h3 u hu t (List.mem_flatMap.2 ⟨j, hj, ht⟩)))
    · rcases List.mem_cons.1 hj with rfl | hj
      · exact Or.inr (Or.inl (fun u hu => h3 t ht u (List.mem_flatMap.2 ⟨k, hk', hu⟩)))
      · exact ih h2 k hk' j hj t ht

theorem prepared_traces {h : LegacyHart} {loaded : Gen LoadChunk} {series : List PowerChunk} {tr : List (Int × Rat)}
    (hp : Prepared h loaded series tr) : ∃ tss, List.Forall₂ (fun k ts => hartTraces h.centroids k.times tr = .ok ts) series tss ∧
      List.Forall₂ (fun k ts => TracesOf h.centroids tr k.times ts) series tss := by
  obtain ⟨_, h2, _⟩ := legacyEdges_spec hp.noise hp.one (hp.increasing.sublist hp.among) hp.steps
  have hsub := h2.trans hp.among
  have hnd : (tr.map Prod.fst).Nodup := (hp.increasing.sublist hsub).imp ne_of_lt
  have hone : ∀ k ∈ series, ∃ ts, hartTraces h.centroids k.times tr = .ok ts ∧ TracesOf h.centroids tr k.times ts := by
    intro k hk
    have hne : k.times ≠ [] := by
      unfold PowerChunk.times
      simpa using hp.filled k hk
    obtain ⟨st, hst⟩ := markTransients_total h.centroids k.times hp.learnt hne tr
      (h.centroids.map (fun _ => List.replicate k.times.length (-1))) (by
        intro e he
        obtain ⟨j, hj, ht⟩ := List.mem_flatMap.1 (hsub.subset (List.mem_map.2 ⟨e, he, rfl⟩))
        exact increasing_chunk series hp.increasing k hk j hj e.1 ht)
    have hex : ∃ ts, hartTraces h.centroids k.times tr = .ok ts := by
      unfold hartTraces
      rw [hst]
      simp only
      rw [if_neg hne, if_neg hp.some]
      exact ⟨_, rfl⟩
    obtain ⟨ts, hts⟩ := hex
    have hinc : k.times.Pairwise (fun a b => a < b) := (List.pairwise_flatMap.1 hp.increasing).1 k hk
    exact ⟨ts, hts, C84_traces h.centroids k.times tr ts hinc hnd hts⟩
  clear hsub h2 hnd hp
  induction series with
  | nil => exact ⟨[], List.Forall₂.nil, List.Forall₂.nil⟩
  | cons k ks ih =>
    obtain ⟨tss, a1, a2⟩ := ih (fun x hx => hone x (List.mem_cons_of_mem _ hx))
    obtain ⟨ts, b1, b2⟩ := hone k List.mem_cons_self
    exact ⟨ts :: tss, List.Forall₂.cons b1 a1, List.Forall₂.cons b2 a2⟩

theorem building_seen (b : Nat) (cs : List (HCall OutMd (Option Rat))) (hcs : ∀ c ∈ cs, Additive c) (m : Nat)
    (df : List (Row (Option Rat))) (hdf : df ≠ []) (hc : HCall.append (outMeterKey b m) df ∈ cs) (store : DisagStore) :
    (hdfRun cs store).seen (hdfComponents (outBuilding b)) ≠ none := by
  obtain ⟨pre, post, rfl⟩ := List.append_of_mem hc
  rw [C93_history, List.foldl_append, List.foldl_cons]
  apply seenAfter_somes _ _ (fun c hc => hcs c (by simp [hc]))
  have hp : hdfComponents (outBuilding b) <+: hdfComponents (outMeterKey b m) := by
    rw [outBuilding_components, outMeterKey_components]
    exact ⟨_, rfl⟩
  have hne : hdfComponents (outBuilding b) ≠ hdfComponents (outMeterKey b m) := by
    rw [outBuilding_components, outMeterKey_components]
    simp
  simp only [seenAfter, hdf, outMeterKey_ne, or_self, if_false, if_neg hne, if_pos hp]
  simp

/-- The calls on the store. -/
theorem legacyHart_run {h : LegacyHart} {loaded : Gen LoadChunk} {series : Gen PowerChunk} {tr : List (Int × Rat)}
    (hp : Prepared h loaded series.out tr) (sp : Int) (b : Nat) (mains : Gen (List (Row (Option Rat)))) (store : DisagStore)
    {tss : List (List (List Int))} (hf : List.Forall₂ (fun k ts => hartTraces h.centroids k.times tr = .ok ts) series.out tss) :
    ∃ rest, (h.disaggregate sp b loaded series mains store).1 = hdfRun (hartCalls b series.out tss ++ rest) store ∧
      (series.err ≠ none ∨ mains.err ≠ none ∨ mains.out = [] → rest = [] ∧
        ∃ e, (h.disaggregate sp b loaded series mains store).2 = .error e) ∧
      (∀ last, series.err = none → mains.err = none → mains.out.getLast? = some last → ∃ mds,
        rest = .append (outMeterKey b 1) last :: mds ∧
        ∀ c ∈ mds, ∃ key md, c = .saveMetadata key md ∧ (key = "/".toList ∨ key = outBuilding b)) := by
  obtain ⟨s, l1, l2, l3, l4, l5, l6⟩ := legacyHartLoop_spec b h.centroids hp.learnt tr series.out tss hf
    ⟨store, [], none, false, none⟩
  unfold LegacyHart.disaggregate
  rw [if_neg (by rw [hp.trained]; simp), hp.steps]
  simp only [l1]
  cases hse : series.err with
  | some e =>
    refine ⟨[], ?_, fun _ => ⟨rfl, e, rfl⟩, ?_⟩
    · rw [List.append_nil]; exact l2
    · intro last hl; cases hl
  | none =>
    simp only
    unfold legacyHartFinish
    cases hme : mains.err with
    | some e =>
      refine ⟨[], ?_, fun _ => ⟨rfl, e, rfl⟩, ?_⟩
      · rw [List.append_nil]; exact l2
      · intro last _ hl; cases hl
    | none =>
      simp only
      cases hlast : mains.out.getLast? with
      | none =>
        refine ⟨[], ?_, fun _ => ⟨rfl, _, rfl⟩, ?_⟩
        · rw [List.append_nil]; exact l2
        · intro last _ _ hl; cases hl
      | some last =>
        have hno : ¬ ((none : Option Err) ≠ none ∨ (none : Option Err) ≠ none ∨ mains.out = []) := by
          rintro (h' | h' | h')
          · exact h' rfl
          · exact h' rfl
          · rw [h'] at hlast; cases hlast
        simp only [run_one_append]
        have hmd : ∃ (mds : List (HCall OutMd (Option Rat))),
            (legacyHartSave b h.centroids.length sp s (hdfRun [.append (outMeterKey b 1) last] s.store)).1 =
              hdfRun mds (hdfRun [.append (outMeterKey b 1) last] s.store) ∧
            ∀ c ∈ mds, ∃ key md, c = .saveMetadata key md ∧ (key = "/".toList ∨ key = outBuilding b) := by
          unfold legacyHartSave
          split
          · split
            · exact ⟨[], rfl, by simp⟩
            · exact saveDisag_run _ _ _ _ _ _ _
          · exact ⟨[], rfl, by simp⟩
        obtain ⟨mds, hm1, hm2⟩ := hmd
        refine ⟨.append (outMeterKey b 1) last :: mds, ?_, fun hc => absurd hc hno, ?_⟩
        · rw [← hdfRun_append] at hm1
          have hsplit : hdfRun (hartCalls b series.out tss ++ .append (outMeterKey b 1) last :: mds) store =
              hdfRun ([.append (outMeterKey b 1) last] ++ mds) s.store := by
            rw [hdfRun_append, l2]
            rfl
          rw [hsplit, ← hm1]
          rcases legacyHartSave b h.centroids.length sp s (hdfRun [.append (outMeterKey b 1) last] s.store) with ⟨store', e | u⟩
          · rfl
          · cases u
            simp only
            cases s.power <;> rfl
        · intro last' _ _ hl
          rw [Option.some.injEq] at hl
          rw [← hl]
          exact ⟨mds, rfl, hm2⟩

theorem forall₂_lengths {cs : List Rat} {tr : List (Int × Rat)} {ks : List PowerChunk} {tss : List (List (List Int))}
    (hf : List.Forall₂ (fun k ts => hartTraces cs k.times tr = .ok ts) ks tss) : ∀ ts ∈ tss, ts.length = cs.length := by
  intro ts hts
  obtain ⟨k, _, hk⟩ := forall₂_mem_right hf hts
  exact hartTraces_length hk

/-- C109. Disaggregating: there are traces of the learnt devices, for every chunk on its own those that its steps say, and meter
`m + 2` gets exactly the traces of device `m`, chunk after chunk, at the times of the readings. This is so whatever happens after the
loop. Meter 1 gets only the last chunk of `mains.load`. No other table and no other node changes. -/
theorem C109_rows_partial {h : LegacyHart} {loaded : Gen LoadChunk} {series : Gen PowerChunk} {tr : List (Int × Rat)}
    (hp : Prepared h loaded series.out tr) (sp : Int) (b : Nat) (mains : Gen (List (Row (Option Rat)))) (store : DisagStore) :
    ∃ tss, List.Forall₂ (fun k ts => TracesOf h.centroids tr k.times ts) series.out tss ∧
      (∀ m, m < h.centroids.length →
        outRows (h.disaggregate sp b loaded series mains store).1 (outMeterKey b (m + 2)) =
          outRows store (outMeterKey b (m + 2)) ++
            (List.zipWith (fun k ts => traceRows k.times (ts.getD m [])) series.out tss).flatten) ∧
      (∀ last, series.err = none → mains.err = none → mains.out.getLast? = some last →
        outRows (h.disaggregate sp b loaded series mains store).1 (outMeterKey b 1) = outRows store (outMeterKey b 1) ++ last) ∧
      (series.err ≠ none ∨ mains.err ≠ none ∨ mains.out = [] →
        (∃ e, (h.disaggregate sp b loaded series mains store).2 = .error e) ∧
        outRows (h.disaggregate sp b loaded series mains store).1 (outMeterKey b 1) = outRows store (outMeterKey b 1) ∧
        ∀ key, hdfGetMetadata (h.disaggregate sp b loaded series mains store).1 key = hdfGetMetadata store key) ∧
      (∀ key, hdfComponents key ≠ [] → hdfComponents key ≠ hdfComponents (outBuilding b) →
        (∀ m, 1 ≤ m → m < h.centroids.length + 2 → ¬ hdfComponents key <+: hdfComponents (outMeterKey b m)) →
        (h.disaggregate sp b loaded series mains store).1.seen (hdfComponents key) = store.seen (hdfComponents key)) := by
  obtain ⟨tss, hf, ht⟩ := prepared_traces hp
  obtain ⟨rest, r1, r2, r3⟩ := legacyHart_run hp sp b mains store hf
  have hlens := forall₂_lengths hf
  have hkind := hartCalls_kind b h.centroids.length series.out tss hlens
  have hrest : ∀ c ∈ rest, (∃ df, c = .append (outMeterKey b 1) df) ∨
      ∃ key md, c = .saveMetadata key md ∧ (key = "/".toList ∨ key = outBuilding b) := by
    intro c hc
    by_cases hend : series.err ≠ none ∨ mains.err ≠ none ∨ mains.out = []
    · rw [(r2 hend).1] at hc; cases hc
    · push Not at hend
      obtain ⟨h1, h2, h3⟩ := hend
      obtain ⟨mds, rfl, hmds⟩ := r3 _ h1 h2 (List.getLast?_eq_some_getLast h3)
      rcases List.mem_cons.1 hc with rfl | hc
      · exact Or.inl ⟨_, rfl⟩
      · exact Or.inr (hmds c hc)
  have hadd : ∀ c ∈ hartCalls b series.out tss ++ rest, Additive c := by
    intro c hc
    rcases List.mem_append.1 hc with hc | hc
    · obtain ⟨m, df, rfl, _⟩ := hkind c hc
      exact Or.inl ⟨b, m, df, rfl⟩
    · rcases hrest c hc with ⟨df, rfl⟩ | ⟨key, md, rfl, _⟩
      · exact Or.inl ⟨b, 1, df, rfl⟩
      · exact Or.inr ⟨key, md, rfl⟩
  refine ⟨tss, ht, ?_, ?_, ?_, ?_⟩
  · intro m hm
    rw [r1, outRows_run _ hadd, List.map_append, List.flatten_append, hartCalls_rows]
    have : (rest.map (rowsAppended (hdfComponents (outMeterKey b (m + 2))))).flatten = [] := by
      rw [List.flatten_eq_nil_iff]
      intro l hl
      obtain ⟨c, hc, rfl⟩ := List.mem_map.1 hl
      rcases hrest c hc with ⟨df, rfl⟩ | ⟨key, md, rfl, _⟩
      · rw [rowsAppended_meter, if_neg (by omega)]
      · rfl
    rw [this, List.append_nil]
  · intro last h1 h2 h3
    obtain ⟨mds, hr, hmds⟩ := r3 last h1 h2 h3
    rw [r1, outRows_run _ hadd, List.map_append, List.flatten_append, hartCalls_low b 1 (by omega), hr, List.nil_append,
      List.map_cons, List.flatten_cons, rowsAppended_meter, if_pos rfl]
    have : (mds.map (rowsAppended (hdfComponents (outMeterKey b 1)))).flatten = [] := by
      rw [List.flatten_eq_nil_iff]
      intro l hl
      obtain ⟨c, hc, rfl⟩ := List.mem_map.1 hl
      obtain ⟨key, md, rfl, _⟩ := hmds c hc
      rfl
    rw [this, List.append_nil]
  · intro hend
    obtain ⟨hr, he⟩ := r2 hend
    rw [hr, List.append_nil] at hadd r1
    refine ⟨he, ?_, ?_⟩
    · rw [r1, outRows_run _ hadd, hartCalls_low b 1 (by omega), List.append_nil]
    · intro key
      rw [r1]
      apply append_metadata
      intro c hc
      obtain ⟨m, df, rfl, _⟩ := hkind c hc
      exact ⟨b, m, df, rfl⟩
  · intro key hk1 hk2 hk3
    rw [r1, C93_history]
    apply seenAfter_others
    intro c hc
    rcases List.mem_append.1 hc with hc | hc
    · obtain ⟨m, df, rfl, hm1, hm2⟩ := hkind c hc
      exact Or.inl ⟨b, m, df, rfl, hk3 m (by omega) hm2⟩
    · rcases hrest c hc with ⟨df, rfl⟩ | ⟨key', md, rfl, hkey⟩
      · exact Or.inl ⟨b, 1, df, rfl, hk3 1 (le_refl _) (by omega)⟩
      · refine Or.inr ⟨key', md, rfl, ?_⟩
        rcases hkey with rfl | rfl
        · exact hk1
        · exact hk2

/-- C109. When the frames of the chunks are sorted and do not overlap: the call returns the times and traces of the last chunk only,
and the metadata list the mains and one unknown appliance per learnt device, over the whole time. -/
theorem C109_returns {h : LegacyHart} {loaded : Gen LoadChunk} {series : Gen PowerChunk} {tr : List (Int × Rat)}
    (hp : Prepared h loaded series.out tr) (sp : Int) (hsp : 0 ≤ sp) (b : Nat) (mains : Gen (List (Row (Option Rat))))
    (store : DisagStore) (hs : series.err = none) (hm : mains.err = none) {rows : List (Row (Option Rat))}
    (hl : mains.out.getLast? = some rows) {first last : PowerChunk} (hfirst : series.out.head? = some first)
    (hlast : series.out.getLast? = some last) (hframes : SortedDisjoint (series.out.map PowerChunk.frame)) :
    ∃ ts, (h.disaggregate sp b loaded series mains store).2 = .ok (last.times, ts) ∧
      TracesOf h.centroids tr last.times ts ∧
      hdfGetMetadata (h.disaggregate sp b loaded series mains store).1 "/".toList =
        .ok (datasetMd "Hart85" sp last.measurement (first.frame.start, last.frame.stop)) ∧
      hdfGetMetadata (h.disaggregate sp b loaded series mains store).1 (outBuilding b) =
        .ok (unknownMd "Hart85" b (first.frame.start, last.frame.stop) h.centroids.length) := by
  obtain ⟨tss, hf, ht⟩ := prepared_traces hp
  obtain ⟨s, l1, l2, l3, l4, l5, l6⟩ := legacyHartLoop_spec b h.centroids hp.learnt tr series.out tss hf
    ⟨store, [], none, false, none⟩
  have hkind := hartCalls_kind b h.centroids.length series.out tss (forall₂_lengths hf)
  have hne : series.out ≠ [] := by intro hc; rw [hc] at hfirst; cases hfirst
  obtain ⟨ts, z1, z2⟩ : ∃ ts, (List.zipWith (fun (k : PowerChunk) ts => (k.times, ts)) series.out tss).getLast? =
      some (last.times, ts) ∧ TracesOf h.centroids tr last.times ts := by
    obtain ⟨init, hinit⟩ : ∃ init, series.out = init ++ [last] := by
      rcases List.eq_nil_or_concat series.out with hc | ⟨init, x, hx⟩
      · exact absurd hc hne
      · rw [List.concat_eq_append] at hx
        rw [hx, List.getLast?_concat, Option.some.injEq] at hlast
        exact ⟨init, by rw [hx, hlast]⟩
    rw [hinit] at ht ⊢
    obtain ⟨t1, ts, t2, rfl, hl1, h1, h2⟩ := forall₂_split ht
    cases h2
    refine ⟨ts, ?_, h1⟩
    rw [List.zipWith_append hl1.length_eq]
    simp
  simp only [z1, Option.some_or] at l5
  have hmeas : s.measurement = some last.measurement := by rw [l4, hlast]; rfl
  have havail := l6 (Or.inl hne)
  rw [List.nil_append] at l3
  obtain ⟨f, fs, hfs⟩ := List.exists_cons_of_ne_nil hne
  have hff : f = first := by rw [hfs] at hfirst; simpa using hfirst
  subst hff
  have hb : (hdfRun [.append (outMeterKey b 1) rows] s.store).seen (hdfComponents (outBuilding b)) ≠ none := by
    rw [l2, ← hdfRun_append]
    obtain ⟨t0, tss', htss⟩ : ∃ t0 tss', tss = t0 :: tss' := by
      rw [hfs] at ht
      cases ht
      exact ⟨_, _, rfl⟩
    have ht0 : TracesOf h.centroids tr f.times t0 := by
      rw [hfs, htss] at ht
      cases ht
      assumption
    obtain ⟨c, cs, hcs⟩ := List.exists_cons_of_ne_nil hp.learnt
    obtain ⟨p, trace, q1, _, q2⟩ := ht0.2 0 c (by rw [hcs]; rfl)
    obtain ⟨t0', rest0, rfl⟩ : ∃ a l, t0 = a :: l := by
      cases t0 with
      | nil => cases q1
      | cons a l => exact ⟨a, l, rfl⟩
    simp only [List.getElem?_cons_zero, Option.some.injEq] at q1
    subst q1
    refine building_seen b _ ?_ 2 (traceRows f.times t0') ?_ ?_ store
    · intro c hc
      rcases List.mem_append.1 hc with hc | hc
      · obtain ⟨m, df, rfl, _⟩ := hkind c hc
        exact Or.inl ⟨b, m, df, rfl⟩
      · rw [List.mem_singleton] at hc
        exact Or.inl ⟨b, 1, rows, hc⟩
    · intro hc
      have := congrArg List.length hc
      have hfill : f.times.length ≠ 0 := by
        have := hp.filled f (by rw [hfs]; exact List.mem_cons_self)
        simp [PowerChunk.times, this]
      have hq := q2.1
      simp [traceRows] at this
      rcases this with h' | h'
      · rw [h'] at hfill; exact hfill rfl
      · rw [h'] at hq; exact hfill hq.symm
    · rw [hfs, htss, hartCalls, traceCalls, List.zipIdx_cons, List.map_cons]
      simp
  rw [hfs, List.map_cons] at hframes l3
  obtain ⟨store', tf, v1, v2, v3, v4, _, _⟩ := C95_save (hdfRun [.append (outMeterKey b 1) rows] s.store) "Hart85" (by decide) sp hsp
    last.measurement f.frame (fs.map PowerChunk.frame) hframes b (.unsupervised h.centroids.length) (by simp) hb
  have htf : tf = (f.frame.start, last.frame.stop) := by
    rw [v2, ← List.map_cons, ← hfs, List.getLast?_map, hlast]
    rcases hstop : last.frame.stop with _ | e <;> simp [hstop]
  rw [htf] at v3 v4
  have hres : h.disaggregate sp b loaded series mains store = (store', .ok (last.times, ts)) := by
    unfold LegacyHart.disaggregate
    rw [if_neg (by rw [hp.trained]; simp), hp.steps]
    simp only [l1, hs]
    unfold legacyHartFinish
    unfold legacyHartSave
    simp only [hm, hl, run_one_append, havail, if_true, hmeas, l3, v1, l5]
  rw [hres]
  exact ⟨ts, rfl, z2, v3, v4⟩

/-- C109. In a chunk in which no step is reported every device is estimated at zero at all times, also if it was switched on in an
earlier chunk and never off. -/
theorem C109_quiet_chunk {cs : List Rat} {tr : List (Int × Rat)} {times : List Int} {ts : List (List Int)}
    (h : TracesOf cs tr times ts) (hq : ∀ e ∈ tr, e.1 ∉ times) :
    ts = List.replicate cs.length (List.replicate times.length 0) := by
  have hoff : ∀ (m : Nat) u, u ∈ times → ¬ SwitchedOn cs tr m u := by
    rintro m u hu ⟨v, hv, _⟩
    exact hq _ hv hu
  rw [List.eq_replicate_iff]
  refine ⟨h.1, ?_⟩
  intro t ht
  obtain ⟨m, hm⟩ := List.mem_iff_getElem?.1 ht
  have hml : m < cs.length := by
    have := (List.getElem?_eq_some_iff.1 hm).1
    have := h.1
    omega
  obtain ⟨p, t', h1, _, h3⟩ := h.2 m _ (List.getElem?_eq_getElem hml)
  rw [hm, Option.some.injEq] at h1
  subst h1
  rw [List.eq_replicate_iff]
  refine ⟨h3.1, ?_⟩
  intro x hx
  obtain ⟨k, hk⟩ := List.mem_iff_getElem?.1 hx
  have hkl : k < times.length := by
    have := (List.getElem?_eq_some_iff.1 hk).1
    have := h3.1
    omega
  have := h3.2.2.2.2 k hkl (fun u hu => hoff m u (List.mem_of_getLast? hu))
    (fun j u _ hu => hoff m u (List.mem_of_getElem? hu))
  rw [hk, Option.some.injEq] at this
  exact this

/-- C109. Without training: `RuntimeError`, and nothing is stored. -/
theorem C109_untrained (sp : Int) (b : Nat) (loaded : Gen LoadChunk) (series : Gen PowerChunk)
    (mains : Gen (List (Row (Option Rat)))) (store : DisagStore) (h : LegacyHart) (ht : h.trained = false) :
    h.disaggregate sp b loaded series mains store = (store, .error .runtimeError) := by
  unfold LegacyHart.disaggregate
  rw [if_pos ht]

theorem legacyHartLoop_append (b : Nat) (cs : List Rat) (tr : List (Int × Rat)) (pre post : List PowerChunk) :
    ∀ s s', legacyHartLoop b cs tr pre s = (s', .ok ()) →
      legacyHartLoop b cs tr (pre ++ post) s = legacyHartLoop b cs tr post s' := by
  induction pre with
  | nil => intro s s' h; cases h; rfl
  | cons k ks ih =>
    intro s s' h
    rw [List.cons_append, legacyHartLoop]
    rw [legacyHartLoop] at h
    simp only at h ⊢
    cases hk : hartTraces cs (k.rows.map Prod.fst) tr with
    | error e => rw [hk] at h; simp at h
    | ok ts =>
      rw [hk] at h
      simp only at h ⊢
      split at h
      · cases h
      · exact ih _ _ h

/-- C109. An empty chunk of the mains raises `IndexError`: the estimates for the chunks before it are stored, those for the chunks
after it are not, and there are neither mains nor metadata. -/
theorem C109_empty_chunk {h : LegacyHart} {loaded : Gen LoadChunk} {series : Gen PowerChunk} {pre post : List PowerChunk}
    {k : PowerChunk} {tr : List (Int × Rat)} (hs : series.out = pre ++ k :: post) (hk : k.rows = [])
    (hp : Prepared h loaded pre tr) (sp : Int) (b : Nat) (mains : Gen (List (Row (Option Rat)))) (store : DisagStore) :
    (h.disaggregate sp b loaded series mains store).2 = .error .indexError ∧
    (h.disaggregate sp b loaded series mains store).1 = (h.disaggregate sp b loaded ⟨pre, some .indexError⟩ mains store).1 := by
  obtain ⟨tss, hf, _⟩ := prepared_traces hp
  obtain ⟨s, l1, l2, _⟩ := legacyHartLoop_spec b h.centroids hp.learnt tr pre tss hf ⟨store, [], none, false, none⟩
  have hbad : hartTraces h.centroids (k.rows.map Prod.fst) tr = .error .indexError := by
    obtain ⟨e, es, rfl⟩ := List.exists_cons_of_ne_nil hp.some
    rw [hk]
    rfl
  unfold LegacyHart.disaggregate
  rw [if_neg (by rw [hp.trained]; simp), if_neg (by rw [hp.trained]; simp), hp.steps]
  simp only [hs, legacyHartLoop_append b h.centroids tr pre (k :: post) _ _ l1, l1]
  rw [legacyHartLoop]
  simp only [hbad]
  exact ⟨trivial, trivial⟩

/-- C109. No chunk of the mains at all, though there are steps: the last chunk of `mains.load` is stored at meter 1, and then
`UnboundLocalError` is raised; there is no metadata. -/
theorem C109_no_series {h : LegacyHart} {loaded : Gen LoadChunk} {tr : List (Int × Rat)} (ht : h.trained = true)
    (htr : legacyEdges h.threshold h.noise loaded = .ok tr) (sp : Int) (b : Nat) (mains : Gen (List (Row (Option Rat))))
    (hm : mains.err = none) {last : List (Row (Option Rat))} (hl : mains.out.getLast? = some last) (store : DisagStore) :
    ∃ store', h.disaggregate sp b loaded ⟨[], none⟩ mains store = (store', .error .unboundLocal) ∧
      outRows store' (outMeterKey b 1) = outRows store (outMeterKey b 1) ++ last ∧
      ∀ key, hdfGetMetadata store' key = hdfGetMetadata store key := by
  refine ⟨hdfRun [.append (outMeterKey b 1) last] store, ?_, ?_, ?_⟩
  · unfold LegacyHart.disaggregate
    rw [if_neg (by rw [ht]; simp), htr]
    simp only [legacyHartLoop]
    unfold legacyHartFinish legacyHartSave
    simp only [hm, hl, run_one_append, Bool.false_eq_true, if_false]
  · rw [outRows_run _ (by
      intro c hc
      rw [List.mem_singleton] at hc
      exact Or.inl ⟨b, 1, last, hc⟩)]
    rw [List.map_singleton, List.flatten_singleton, rowsAppended_meter, if_pos rfl]
  · intro key
    apply append_metadata
    intro c hc
    rw [List.mem_singleton] at hc
    exact ⟨b, 1, last, hc⟩

/-! ### Where it differs from what one may expect -/

/-- A chunk loaded with one column. -/
def loadOne (l : List (Int × Rat)) : LoadChunk := l.map (fun e => (e.1, [some e.2]))

/-- A chunk of mains. -/
def powerOne (l : List (Int × Rat)) : PowerChunk :=
  ⟨l.map (fun e => (e.1, some e.2)), mk' (l.head?.map Prod.fst) (l.getLast?.map (fun e => e.1 + 1)), ("power", "active")⟩

/-- C109: the steps depend on where the chunks end. In one chunk something is switched on at 5 and off at 7; if a chunk begins at 5,
the step at 5 is lost, and the other one has no partner. -/
theorem C109_boundary_counterexample :
    let a : List (Int × Rat) := [(0, 0), (1, 300), (2, 300), (3, 0), (4, 0)]
    let c : List (Int × Rat) := [(5, 500), (6, 500), (7, 0), (8, 0)]
    legacyEdges 15 70 ⟨[loadOne (a ++ c)], none⟩ = .ok [(1, 300), (3, -300), (5, 500), (7, -500)] ∧
    legacyEdges 15 70 ⟨[loadOne a, loadOne c], none⟩ = .ok [(1, 300), (3, -300), (7, -500)] := by
  decide +kernel

/-- C109: the estimates depend on where the chunks end. A device of 500 W is switched on at 2 and stays on. In one chunk it is estimated
at 500 at 4; if a chunk begins at 4, at 0. -/
theorem C109_forgets_counterexample :
    let h : LegacyHart := ⟨15, 70, [500], true⟩
    let a : List (Int × Rat) := [(0, 0), (1, 0), (2, 500), (3, 500)]
    let c : List (Int × Rat) := [(4, 500), (5, 500), (6, 500)]
    let loaded : Gen LoadChunk := ⟨[loadOne (a ++ c)], none⟩
    let mains : Gen (List (Row (Option Rat))) := ⟨[(powerOne (a ++ c)).rows], none⟩
    outRows (h.disaggregate 1 1 loaded ⟨[powerOne (a ++ c)], none⟩ mains HGroup.new).1 (outMeterKey 1 2) =
      [(0, some 0), (1, some 0), (2, some 0), (3, some 500), (4, some 500), (5, some 500), (6, some 0)] ∧
    outRows (h.disaggregate 1 1 loaded ⟨[powerOne a, powerOne c], none⟩ mains HGroup.new).1 (outMeterKey 1 2) =
      [(0, some 0), (1, some 0), (2, some 0), (3, some 500), (4, some 0), (5, some 0), (6, some 0)] := by
  decide +kernel

/-- C109: only the last chunk of the mains is stored at meter 1, though the estimates are for both. -/
theorem C109_mains_counterexample :
    let h : LegacyHart := ⟨15, 70, [500], true⟩
    let a : List (Int × Rat) := [(0, 0), (1, 0), (2, 500), (3, 500), (4, 500)]
    let c : List (Int × Rat) := [(5, 500), (6, 500), (7, 0), (8, 0)]
    let loaded : Gen LoadChunk := ⟨[loadOne a, loadOne c], none⟩
    let r := h.disaggregate 1 1 loaded ⟨[powerOne a, powerOne c], none⟩ ⟨[(powerOne a).rows, (powerOne c).rows], none⟩ HGroup.new
    (outRows r.1 (outMeterKey 1 2)).map Prod.fst = [0, 1, 2, 3, 4, 5, 6, 7, 8] ∧
    (outRows r.1 (outMeterKey 1 1)).map Prod.fst = [5, 6, 7, 8] ∧ r.2 = .ok ([5, 6, 7, 8], [[0, 0, 0, 0]]) := by
  decide +kernel

/-- C109: training again, with other levels, raises; what was learnt is still there, but disaggregating now uses the new levels. -/
theorem C109_retrain_counterexample :
    let prm : HartParams := ⟨20, 100, 35 / 1000, 1000⟩
    let a : List (Int × Rat) := [(0, 0), (1, 0), (2, 500), (3, 500), (4, 0), (5, 0)]
    let loaded : Gen LoadChunk := ⟨[loadOne a], none⟩
    let h := (LegacyHart.init.train prm (fun l => .ok l) 15 70 loaded).1
    let h' := (h.train prm (fun l => .ok l) 15 10000 loaded).1
    h = ⟨15, 70, [500], true⟩ ∧ (h.train prm (fun l => .ok l) 15 10000 loaded).2 = .error .indexError ∧
    h' = ⟨15, 10000, [500], true⟩ ∧
    (h.disaggregate 1 1 loaded ⟨[powerOne a], none⟩ ⟨[(powerOne a).rows], none⟩ HGroup.new).2 =
      .ok ([0, 1, 2, 3, 4, 5], [[0, 0, 0, 500, 0, 0]]) ∧
    (h'.disaggregate 1 1 loaded ⟨[powerOne a], none⟩ ⟨[(powerOne a).rows], none⟩ HGroup.new).2 = .error .indexError := by
  decide +kernel

/-- The hypotheses of `C109_rows_partial` and `C109_returns` are met by the two chunks of `C109_mains_counterexample`. -/
example :
    let a : List (Int × Rat) := [(0, 0), (1, 0), (2, 500), (3, 500), (4, 500)]
    let c : List (Int × Rat) := [(5, 500), (6, 500), (7, 0), (8, 0)]
    Prepared ⟨15, 70, [500], true⟩ ⟨[loadOne a, loadOne c], none⟩ [powerOne a, powerOne c] [(2, 500), (7, -500)] ∧
    SortedDisjoint ([powerOne a, powerOne c].map PowerChunk.frame) := by
  refine ⟨⟨rfl, by decide, by decide +kernel, by decide +kernel, by decide +kernel, by decide +kernel, ?_, by decide +kernel, by decide⟩, ?_⟩
  · exact List.Sublist.refl _
  · exact Chain.cons _ _ _ 0 5 5 ⟨rfl, rfl, rfl, rfl⟩ (by decide) rfl (by decide)
      (Chain.single _ 5 9 ⟨rfl, rfl, rfl, rfl⟩ (by decide))

end Nilmtk
