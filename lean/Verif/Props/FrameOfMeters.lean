import Verif.Model.FrameOfMeters
import Mathlib.Data.List.Nodup
import Mathlib.Data.List.Sort
import Mathlib.Tactic.Linarith
/-!
C81: `MeterGroup.dataframe_of_meters`.
-/
namespace Nilmtk

/-! ### Specification -/

/-- The meter `i` has a non-empty `k`-th chunk `c`. -/
def ChunkAt {ι : Type} (gens : List (ι × Gen MChunk)) (k : Nat) (i : ι) (c : MChunk) : Prop :=
  ∃ g, (i, g) ∈ gens ∧ g.out[k]? = some c ∧ c.rows ≠ [] ∧ c.ncols ≠ 0

/-- Some meter has a non-empty `k`-th chunk. -/
def Filled {ι : Type} (gens : List (ι × Gen MChunk)) (k : Nat) : Prop := ∃ i c, ChunkAt gens k i c

/-- The frame shows `v` (`none` is NaN) for the meter `i` in the row. -/
def Shows {ι : Type} [DecidableEq ι] (df : MFrame ι) (row : Int × List (Option Rat)) (i : ι) (v : Option Rat) : Prop :=
  row ∈ df.rows ∧ (df.cols.zip row.2).lookup i = some v

/-! ### Lemmas: rounds -/

/-- The non-empty `k`-th chunks, summed. -/
def roundAt {ι : Type} (gens : List (ι × Gen MChunk)) (k : Nat) : List (ι × List (Int × Rat)) :=
  gens.filterMap (fun p => match p.2.out[k]? with
    | none => none
    | some c => if c.empty then none else some (p.1, c.sums))

theorem mchunk_empty (c : MChunk) : c.empty = false ↔ c.rows ≠ [] ∧ c.ncols ≠ 0 := by
  unfold MChunk.empty
  simp [Bool.or_eq_false_iff]

theorem mem_roundAt {ι : Type} {gens : List (ι × Gen MChunk)} {k : Nat} {i : ι} {l : List (Int × Rat)} :
    (i, l) ∈ roundAt gens k ↔ ∃ c, ChunkAt gens k i c ∧ l = c.sums := by
  unfold roundAt ChunkAt
  rw [List.mem_filterMap]
  constructor
  · rintro ⟨⟨j, g⟩, hg, h⟩
    simp only at h
    cases hc : g.out[k]? with
    | none => rw [hc] at h; cases h
    | some c =>
      rw [hc] at h
      simp only at h
      split at h
      · cases h
      · rename_i he
        simp only [Option.some.injEq, Prod.mk.injEq] at h
        obtain ⟨rfl, rfl⟩ := h
        exact ⟨c, ⟨g, hg, hc, (mchunk_empty c).1 (by simpa using he)⟩, rfl⟩
  · rintro ⟨c, ⟨g, hg, hc, hne⟩, rfl⟩
    refine ⟨(i, g), hg, ?_⟩
    have he := (mchunk_empty c).2 hne
    simp only [hc, he, Bool.false_eq_true, if_false]

theorem roundAt_ids {ι : Type} (gens : List (ι × Gen MChunk)) (k : Nat) :
    ((roundAt gens k).map Prod.fst).Sublist (gens.map Prod.fst) := by
  induction gens with
  | nil => exact List.Sublist.refl _
  | cons p gens ih =>
    unfold roundAt at ih ⊢
    rw [List.filterMap_cons]
    cases hc : p.2.out[k]? with
    | none => exact ih.cons _
    | some c =>
      by_cases he : c.empty = true
      · simp only [he, if_true]; exact ih.cons _
      · simp only [he, Bool.false_eq_true, if_false, List.map_cons]; exact ih.cons_cons _

theorem roundAt_cons {ι : Type} (i : ι) (g : Gen MChunk) (gens : List (ι × Gen MChunk)) (k : Nat) :
    roundAt ((i, g) :: gens) k = (match g.out[k]? with
      | none => []
      | some c => if c.empty then [] else [(i, c.sums)]) ++ roundAt gens k := by
  unfold roundAt
  rw [List.filterMap_cons]
  cases g.out[k]? with
  | none => rfl
  | some c =>
    by_cases he : c.empty = true <;> simp [he]

/-- A round reads the first chunk of every meter and leaves the others. -/
theorem nextRound_ok {ι : Type} (gens : List (ι × Gen MChunk)) (cs : List (ι × List (Int × Rat)))
    (gens' : List (ι × Gen MChunk)) (h : nextRound gens = .ok (cs, gens')) :
    cs = roundAt gens 0 ∧ gens' = gens.map (fun p => (p.1, ⟨p.2.out.tail, p.2.err⟩)) := by
  induction gens generalizing cs gens' with
  | nil =>
    simp only [nextRound, Except.ok.injEq, Prod.mk.injEq] at h
    obtain ⟨rfl, rfl⟩ := h
    exact ⟨rfl, rfl⟩
  | cons p gens ih =>
    obtain ⟨i, out, err⟩ := p
    rw [roundAt_cons]
    cases out with
    | nil =>
      cases err with
      | some e => simp [nextRound] at h
      | none =>
        simp only [nextRound] at h
        cases hr : nextRound gens with
        | error e => rw [hr] at h; cases h
        | ok r =>
          obtain ⟨ds, gs⟩ := r
          rw [hr] at h
          simp only [Except.ok.injEq, Prod.mk.injEq] at h
          obtain ⟨rfl, rfl⟩ := h
          obtain ⟨h1, h2⟩ := ih _ _ hr
          exact ⟨by simpa using h1, by rw [h2]; rfl⟩
    | cons c out =>
      simp only [nextRound] at h
      cases hr : nextRound gens with
      | error e => rw [hr] at h; cases h
      | ok r =>
        obtain ⟨ds, gs⟩ := r
        rw [hr] at h
        simp only [Except.ok.injEq, Prod.mk.injEq] at h
        obtain ⟨rfl, rfl⟩ := h
        obtain ⟨h1, h2⟩ := ih _ _ hr
        refine ⟨?_, by rw [h2]; rfl⟩
        simp only [List.getElem?_cons_zero]
        split
        · simpa using h1
        · rw [h1]; rfl

theorem roundAt_tail {ι : Type} (gens : List (ι × Gen MChunk)) (k : Nat) :
    roundAt (gens.map (fun p => (p.1, (⟨p.2.out.tail, p.2.err⟩ : Gen MChunk)))) k = roundAt gens (k + 1) := by
  unfold roundAt
  rw [List.filterMap_map]
  apply List.filterMap_congr
  intro p _
  simp only [Function.comp, List.getElem?_tail]

theorem total_tail {ι : Type} (gens : List (ι × Gen MChunk)) :
    ((gens.map (fun p => (p.1, (⟨p.2.out.tail, p.2.err⟩ : Gen MChunk)))).map (fun g => g.2.out.length)).sum ≤
      (gens.map (fun g => g.2.out.length)).sum ∧
    (roundAt gens 0 ≠ [] →
      ((gens.map (fun p => (p.1, (⟨p.2.out.tail, p.2.err⟩ : Gen MChunk)))).map (fun g => g.2.out.length)).sum <
        (gens.map (fun g => g.2.out.length)).sum) := by
  induction gens with
  | nil => simp [roundAt]
  | cons p gens ih =>
    obtain ⟨i, out, err⟩ := p
    rw [roundAt_cons]
    simp only [List.map_cons, List.sum_cons]
    cases out with
    | nil =>
      simp only [List.tail_nil, List.getElem?_nil, List.nil_append]
      exact ⟨by omega, fun h => by have := ih.2 h; omega⟩
    | cons c out =>
      simp only [List.tail_cons, List.length_cons]
      exact ⟨by omega, fun _ => by omega⟩

/-- The segments of a successful loop: one per round, until a round without chunks. -/
theorem frameLoop_ok {ι : Type} (fuel : Nat) (gens : List (ι × Gen MChunk)) (ss : List (MFrame ι))
    (hf : (gens.map (fun g => g.2.out.length)).sum < fuel) (h : frameLoop fuel gens = .ok ss) :
    (∀ k s, ss[k]? = some s → segmentOf (roundAt gens k) = .ok s) ∧ roundAt gens ss.length = [] ∧
      ∀ k, k < ss.length → roundAt gens k ≠ [] := by
  induction fuel generalizing gens ss with
  | zero => omega
  | succ fuel ih =>
    rw [frameLoop] at h
    cases hr : nextRound gens with
    | error e => rw [hr] at h; cases h
    | ok r =>
      obtain ⟨cs, gens'⟩ := r
      obtain ⟨h1, h2⟩ := nextRound_ok gens cs gens' hr
      rw [hr] at h
      cases cs with
      | nil =>
        simp only [Except.ok.injEq] at h
        subst h
        exact ⟨by simp, h1.symm, by simp⟩
      | cons c cs =>
        simp only at h
        cases hs : segmentOf (c :: cs) with
        | error e => rw [hs] at h; cases h
        | ok s =>
          rw [hs] at h
          simp only at h
          cases hl : frameLoop fuel gens' with
          | error e => rw [hl] at h; cases h
          | ok ss' =>
            rw [hl] at h
            simp only [Except.ok.injEq] at h
            subst h
            have ht := (total_tail gens).2 (by rw [← h1]; simp)
            obtain ⟨i1, i2, i3⟩ := ih gens' ss' (by rw [h2]; omega) hl
            rw [h2] at i1 i2 i3
            simp only [roundAt_tail] at i1 i2 i3
            refine ⟨?_, by simpa using i2, ?_⟩
            · intro k t ht
              cases k with
              | zero =>
                simp only [List.getElem?_cons_zero, Option.some.injEq] at ht
                subst ht
                rw [← h1]; exact hs
              | succ k =>
                simp only [List.getElem?_cons_succ] at ht
                exact i1 k t ht
            · intro k hk
              cases k with
              | zero => rw [← h1]; simp
              | succ k => exact i3 k (by simpa using hk)

/-! ### Lemmas: one segment -/

theorem lookup_zip_map {ι β : Type} [DecidableEq ι] (l : List (ι × β)) (F : ι × β → Option Rat)
    (hnd : (l.map Prod.fst).Nodup) (i : ι) (b : β) (h : (i, b) ∈ l) :
    ((l.map Prod.fst).zip (l.map F)).lookup i = some (F (i, b)) := by
  induction l with
  | nil => cases h
  | cons p l ih =>
    rw [List.map_cons, List.nodup_cons] at hnd
    simp only [List.map_cons, List.zip_cons_cons, List.lookup_cons]
    rcases List.mem_cons.1 h with h | h
    · subst h; simp
    · have : i ≠ p.1 := fun he => hnd.1 (by rw [← he]; exact List.mem_map.2 ⟨_, h, rfl⟩)
      rw [beq_eq_false_iff_ne.2 this]
      exact ih hnd.2 h

theorem lookup_zip_mem {ι : Type} [DecidableEq ι] (l : List ι) (vs : List (Option Rat)) (i : ι) (v : Option Rat)
    (h : (l.zip vs).lookup i = some v) : i ∈ l := by
  induction l generalizing vs with
  | nil => simp at h
  | cons a l ih =>
    cases vs with
    | nil => simp at h
    | cons w vs =>
      simp only [List.zip_cons_cons, List.lookup_cons] at h
      by_cases he : i = a
      · exact he ▸ List.mem_cons_self
      · rw [beq_eq_false_iff_ne.2 he] at h
        exact List.mem_cons_of_mem _ (ih vs h)

theorem lookup_pairs_mem {l : List (Int × Rat)} {t : Int} {v : Rat} (h : l.lookup t = some v) : (t, v) ∈ l := by
  induction l with
  | nil => cases h
  | cons p l ih =>
    rw [List.lookup_cons] at h
    by_cases he : t = p.1
    · rw [he] at h ⊢
      simp only [BEq.rfl, Option.some.injEq] at h
      subst h
      exact List.mem_cons_self
    · rw [beq_eq_false_iff_ne.2 he] at h
      exact List.mem_cons_of_mem _ (ih h)

theorem lookup_pairs_of_mem {l : List (Int × Rat)} (hnd : (l.map Prod.fst).Nodup) {t : Int} {v : Rat} (h : (t, v) ∈ l) :
    l.lookup t = some v := by
  induction l with
  | nil => cases h
  | cons p l ih =>
    rw [List.map_cons, List.nodup_cons] at hnd
    rw [List.lookup_cons]
    rcases List.mem_cons.1 h with h | h
    · subst h; simp
    · have : t ≠ p.1 := fun he => hnd.1 (by rw [← he]; exact List.mem_map.2 ⟨_, h, rfl⟩)
      rw [beq_eq_false_iff_ne.2 this]
      exact ih hnd.2 h

theorem unionIndex_mem (idxs : List (List Int)) (t : Int) : t ∈ unionIndex idxs ↔ ∃ l ∈ idxs, t ∈ l := by
  unfold unionIndex
  rw [(List.perm_insertionSort _ _).mem_iff, List.mem_dedup, List.mem_flatten]

theorem unionIndex_sorted (idxs : List (List Int)) : (unionIndex idxs).Pairwise (· < ·) := by
  have h1 : (unionIndex idxs).Pairwise (· ≤ ·) := List.pairwise_insertionSort _ _
  have h2 : (unionIndex idxs).Nodup := (List.perm_insertionSort _ _).nodup_iff.2 (List.nodup_dedup _)
  exact (List.pairwise_and_iff.2 ⟨h1, h2⟩).imp (fun h => lt_of_le_of_ne h.1 h.2)

/-- A segment has one column per chunk, and its cells are the readings of the chunks. -/
theorem segment_ok {ι : Type} [DecidableEq ι] (cs : List (ι × List (Int × Rat))) (s : MFrame ι) (hnd : (cs.map Prod.fst).Nodup)
    (h : segmentOf cs = .ok s) :
    s.cols = cs.map Prod.fst ∧
    (∀ row ∈ s.rows, ∀ i v, (s.cols.zip row.2).lookup i = some (some v) → ∃ l, (i, l) ∈ cs ∧ (row.1, v) ∈ l) ∧
    (∀ i l, (i, l) ∈ cs → ∀ t v, (t, v) ∈ l →
      ∃ row ∈ s.rows, row.1 = t ∧ (s.cols.zip row.2).lookup i = some (some v)) ∧
    (∀ row ∈ s.rows, ∃ i l v, (i, l) ∈ cs ∧ (row.1, v) ∈ l) ∧
    ((∀ c ∈ cs, (c.2.map Prod.fst).Pairwise (· < ·)) → (s.rows.map Prod.fst).Pairwise (· < ·)) := by
  cases cs with
  | nil => cases h
  | cons c cs' =>
    simp only [segmentOf] at h
    have hlook : ∀ (F : ι × List (Int × Rat) → Option Rat) i (v : Rat),
        (((c :: cs').map Prod.fst).zip ((c :: cs').map F)).lookup i = some (some v) →
        ∃ l, (i, l) ∈ c :: cs' ∧ F (i, l) = some v := by
      intro F i v hv
      have hm := lookup_zip_mem _ _ _ _ hv
      obtain ⟨⟨j, l⟩, hl, hj⟩ := List.mem_map.1 hm
      simp only at hj
      subst hj
      refine ⟨l, hl, ?_⟩
      rw [lookup_zip_map _ F hnd j l hl] at hv
      simpa using hv
    split at h
    · rename_i hsame
      simp only [Except.ok.injEq] at h
      subst h
      have hidx : ∀ d ∈ c :: cs', d.2.map Prod.fst = c.2.map Prod.fst := by
        intro d hd
        rcases List.mem_cons.1 hd with rfl | hd
        · rfl
        · exact hsame d hd
      have hrow : ∀ (k : Nat) (t : Int), ((c.2.map Prod.fst)[k]? = some t) → ∀ d ∈ c :: cs', ∃ v, d.2[k]? = some (t, v) := by
        intro k t hk d hd
        rw [← hidx d hd, List.getElem?_map] at hk
        cases hx : d.2[k]? with
        | none => rw [hx] at hk; cases hk
        | some p =>
          rw [hx] at hk
          simp only [Option.map_some, Option.some.injEq] at hk
          exact ⟨p.2, by rw [← hk]⟩
      refine ⟨rfl, ?_, ?_, ?_, ?_⟩
      · intro row hr i v hv
        obtain ⟨⟨t, k⟩, hk, rfl⟩ := List.mem_map.1 hr
        have hk := List.mk_mem_zipIdx_iff_getElem?.1 hk
        obtain ⟨l, hl, hF⟩ := hlook (fun d => d.2[k]?.map Prod.snd) i v hv
        refine ⟨l, hl, ?_⟩
        obtain ⟨w, hw⟩ := hrow k t hk _ hl
        simp only at hF hw
        rw [hw] at hF
        simp only [Option.map_some, Option.some.injEq] at hF
        subst hF
        exact List.mem_of_getElem? hw
      · intro i l hl t v htv
        obtain ⟨k, hk⟩ := List.getElem?_of_mem htv
        have hk' : (c.2.map Prod.fst)[k]? = some t := by
          rw [← hidx _ hl, List.getElem?_map, hk]; rfl
        refine ⟨_, List.mem_map.2 ⟨(t, k), List.mk_mem_zipIdx_iff_getElem?.2 hk', rfl⟩, rfl, ?_⟩
        rw [lookup_zip_map _ (fun d => d.2[k]?.map Prod.snd) hnd i l hl]
        simp only [hk, Option.map_some]
      · intro row hr
        obtain ⟨⟨t, k⟩, hk, rfl⟩ := List.mem_map.1 hr
        have hk := List.mk_mem_zipIdx_iff_getElem?.1 hk
        obtain ⟨w, hw⟩ := hrow k t hk c List.mem_cons_self
        exact ⟨c.1, c.2, w, List.mem_cons_self, List.mem_of_getElem? hw⟩
      · intro hp
        have := hp c List.mem_cons_self
        rw [List.map_map]
        have e : (Prod.fst ∘ fun p : Int × Nat => (p.1, (c :: cs').map (fun d => d.2[p.2]?.map Prod.snd))) = Prod.fst := rfl
        rw [e, List.zipIdx_map_fst]
        exact this
    · split at h
      · rename_i hnodup
        simp only [Except.ok.injEq] at h
        subst h
        refine ⟨rfl, ?_, ?_, ?_, ?_⟩
        · intro row hr i v hv
          obtain ⟨t, ht, rfl⟩ := List.mem_map.1 hr
          obtain ⟨l, hl, hF⟩ := hlook (fun d => d.2.lookup t) i v hv
          exact ⟨l, hl, lookup_pairs_mem hF⟩
        · intro i l hl t v htv
          refine ⟨_, List.mem_map.2 ⟨t, ?_, rfl⟩, rfl, ?_⟩
          · rw [unionIndex_mem]
            exact ⟨_, List.mem_map.2 ⟨_, hl, rfl⟩, List.mem_map.2 ⟨_, htv, rfl⟩⟩
          · rw [lookup_zip_map _ (fun d => d.2.lookup t) hnd i l hl]
            simp only [lookup_pairs_of_mem (hnodup _ hl) htv]
        · intro row hr
          obtain ⟨t, ht, rfl⟩ := List.mem_map.1 hr
          rw [unionIndex_mem] at ht
          obtain ⟨l, hl, htl⟩ := ht
          obtain ⟨⟨i, d⟩, hd, rfl⟩ := List.mem_map.1 hl
          obtain ⟨⟨t', v⟩, htv, rfl⟩ := List.mem_map.1 htl
          exact ⟨i, d, v, hd, htv⟩
        · intro _
          rw [List.map_map]
          have e : (Prod.fst ∘ fun t : Int => (t, (c :: cs').map (fun d => d.2.lookup t))) = id := rfl
          rw [e, List.map_id]
          exact unionIndex_sorted _
      · cases h

/-! ### Lemmas: concatenation -/

theorem lookup_zip_self {ι : Type} [DecidableEq ι] (l : List ι) (F : ι → Option Rat) (i : ι) (h : i ∈ l) :
    (l.zip (l.map F)).lookup i = some (F i) := by
  induction l with
  | nil => cases h
  | cons a l ih =>
    simp only [List.map_cons, List.zip_cons_cons, List.lookup_cons]
    by_cases he : i = a
    · subst he; simp
    · rw [beq_eq_false_iff_ne.2 he]
      rcases List.mem_cons.1 h with h | h
      · exact absurd h he
      · exact ih h

theorem mem_joinCols {ι : Type} [DecidableEq ι] (ss : List (MFrame ι)) (i : ι) :
    i ∈ joinCols ss ↔ ∃ s ∈ ss, i ∈ s.cols := by
  induction ss with
  | nil => simp [joinCols]
  | cons s ss ih =>
    rw [joinCols, List.mem_append, List.mem_filter, ih]
    constructor
    · rintro (h | ⟨⟨t, ht, hi⟩, _⟩)
      · exact ⟨s, List.mem_cons_self, h⟩
      · exact ⟨t, List.mem_cons_of_mem _ ht, hi⟩
    · rintro ⟨t, ht, hi⟩
      by_cases hs : i ∈ s.cols
      · exact Or.inl hs
      · rcases List.mem_cons.1 ht with rfl | ht
        · exact absurd hi hs
        · exact Or.inr ⟨⟨t, ht, hi⟩, by simpa using hs⟩

theorem joinCols_nodup {ι : Type} [DecidableEq ι] (ss : List (MFrame ι)) (h : ∀ s ∈ ss, s.cols.Nodup) : (joinCols ss).Nodup := by
  induction ss with
  | nil => exact .nil
  | cons s ss ih =>
    rw [joinCols, List.nodup_append]
    refine ⟨h s List.mem_cons_self, (ih (fun x hx => h x (List.mem_cons_of_mem _ hx))).filter _, ?_⟩
    intro a ha b hb hab
    subst hab
    have := (List.mem_filter.1 hb).2
    simp [ha] at this

/-- The shape of a successful result. -/
theorem frame_shape {ι : Type} [DecidableEq ι] (gens : List (ι × Gen MChunk)) (df : MFrame ι) (h : frameOfMeters gens = .ok df) :
    (df = ⟨gens.map Prod.fst, []⟩ ∧ roundAt gens 0 = []) ∨
    ∃ ss, ss ≠ [] ∧ df = concatFrames ss ∧ (∀ k s, ss[k]? = some s → segmentOf (roundAt gens k) = .ok s) ∧
      roundAt gens ss.length = [] ∧ ∀ k, k < ss.length → roundAt gens k ≠ [] := by
  unfold frameOfMeters at h
  cases hl : frameLoop ((gens.map (fun g => g.2.out.length)).sum + 1) gens with
  | error e => rw [hl] at h; cases h
  | ok ss =>
    rw [hl] at h
    have hk := frameLoop_ok _ gens ss (by omega) hl
    cases ss with
    | nil =>
      simp only [Except.ok.injEq] at h
      exact Or.inl ⟨h.symm, hk.2.1⟩
    | cons s ss =>
      simp only [Except.ok.injEq] at h
      exact Or.inr ⟨s :: ss, by simp, h.symm, hk⟩

theorem filled_iff {ι : Type} (gens : List (ι × Gen MChunk)) (k : Nat) : Filled gens k ↔ roundAt gens k ≠ [] := by
  constructor
  · rintro ⟨i, c, h⟩
    exact List.ne_nil_of_mem (mem_roundAt.2 ⟨c, h, rfl⟩)
  · intro h
    obtain ⟨⟨i, l⟩, hm⟩ := List.exists_mem_of_ne_nil _ h
    obtain ⟨c, hc, _⟩ := mem_roundAt.1 hm
    exact ⟨i, c, hc⟩

theorem mem_sums {c : MChunk} {t : Int} {v : Rat} : (t, v) ∈ c.sums ↔ ∃ r ∈ c.rows, r.1 = t ∧ skipSum r.2 = v := by
  unfold MChunk.sums
  rw [List.mem_map]
  constructor
  · rintro ⟨r, hr, he⟩
    simp only [Prod.mk.injEq] at he
    exact ⟨r, hr, he.1, he.2⟩
  · rintro ⟨r, hr, rfl, rfl⟩
    exact ⟨r, hr, rfl⟩

theorem concat_cell {ι : Type} [DecidableEq ι] {ss : List (MFrame ι)} {s : MFrame ι}
    (r : Int × List (Option Rat)) {i : ι} (hi : i ∈ joinCols ss) :
    ((joinCols ss).zip ((joinCols ss).map (cellIn s.cols r.2))).lookup i = some (((s.cols.zip r.2).lookup i).join) := by
  rw [lookup_zip_self _ _ _ hi]; rfl

/-! ### C81 -/

/-- C81. Every number in the frame is a reading of the meter of its column at the time of its row, summed over the columns
of the reading. -/
theorem C81_cells {ι : Type} [DecidableEq ι] (gens : List (ι × Gen MChunk)) (hnd : (gens.map Prod.fst).Nodup)
    (df : MFrame ι) (h : frameOfMeters gens = .ok df) (row : Int × List (Option Rat)) (i : ι) (v : Rat)
    (hv : Shows df row i (some v)) :
    ∃ k c, ChunkAt gens k i c ∧ ∃ r ∈ c.rows, r.1 = row.1 ∧ skipSum r.2 = v := by
  obtain ⟨hr, hl⟩ := hv
  rcases frame_shape gens df h with ⟨rfl, _⟩ | ⟨ss, hne, rfl, hseg, hend, hfull⟩
  · cases hr
  · have hr' := hr
    unfold concatFrames at hr'
    simp only at hr'
    obtain ⟨s, hs, hr'⟩ := List.mem_flatMap.1 hr'
    obtain ⟨r, hrs, rfl⟩ := List.mem_map.1 hr'
    obtain ⟨k, hk⟩ := List.getElem?_of_mem hs
    have hsg := hseg k s hk
    obtain ⟨s1, s2, _⟩ := segment_ok _ s ((roundAt_ids gens k).nodup hnd) hsg
    have hi := lookup_zip_mem _ _ _ _ hl
    have hcell := concat_cell (s := s) r hi
    have hl' : ((joinCols ss).zip ((joinCols ss).map (cellIn s.cols r.2))).lookup i = some (some v) := hl
    rw [hcell] at hl'
    simp only [Option.some.injEq] at hl'
    have hlk : (s.cols.zip r.2).lookup i = some (some v) := by
      cases hx : (s.cols.zip r.2).lookup i with
      | none => rw [hx] at hl'; cases hl'
      | some w => rw [hx] at hl'; simp only [Option.join_some] at hl'; rw [hl']
    obtain ⟨l, hl1, hl2⟩ := s2 r hrs i v hlk
    obtain ⟨c, hc, rfl⟩ := mem_roundAt.1 hl1
    exact ⟨k, c, hc, mem_sums.1 hl2⟩

/-- C81. Every reading is in the frame, in the column of its meter and in a row of its time, as long as no earlier round of
chunks was empty for all meters. -/
theorem C81_complete {ι : Type} [DecidableEq ι] (gens : List (ι × Gen MChunk)) (hnd : (gens.map Prod.fst).Nodup)
    (df : MFrame ι) (h : frameOfMeters gens = .ok df) (k : Nat) (hfill : ∀ j < k, Filled gens j) (i : ι) (c : MChunk)
    (hc : ChunkAt gens k i c) (r : Int × List (Option Rat)) (hr : r ∈ c.rows) :
    ∃ row, row.1 = r.1 ∧ Shows df row i (some (skipSum r.2)) := by
  have hmem : (i, c.sums) ∈ roundAt gens k := mem_roundAt.2 ⟨c, hc, rfl⟩
  rcases frame_shape gens df h with ⟨rfl, h0⟩ | ⟨ss, hne, rfl, hseg, hend, hfull⟩
  · exfalso
    cases k with
    | zero => rw [h0] at hmem; cases hmem
    | succ k => exact (filled_iff gens 0).1 (hfill 0 (by omega)) h0
  · have hk : k < ss.length := by
      by_contra hn
      rcases Nat.lt_or_ge ss.length k with hlt | hge
      · exact (filled_iff gens _).1 (hfill _ hlt) hend
      · have : k = ss.length := by omega
        rw [this, hend] at hmem; cases hmem
    obtain ⟨s, hs⟩ : ∃ s, ss[k]? = some s := ⟨ss[k], List.getElem?_eq_getElem hk⟩
    have hsm := List.mem_of_getElem? hs
    obtain ⟨s1, _, s3, _⟩ := segment_ok _ s ((roundAt_ids gens k).nodup hnd) (hseg k s hs)
    obtain ⟨q, hq, hqt, hql⟩ := s3 i _ hmem r.1 (skipSum r.2) (mem_sums.2 ⟨r, hr, rfl, rfl⟩)
    have hi : i ∈ joinCols ss := (mem_joinCols ss i).2 ⟨s, hsm, by rw [s1]; exact List.mem_map.2 ⟨_, hmem, rfl⟩⟩
    refine ⟨(q.1, (joinCols ss).map (cellIn s.cols q.2)), hqt, ?_, ?_⟩
    · exact List.mem_flatMap.2 ⟨s, hsm, List.mem_map.2 ⟨q, hq, rfl⟩⟩
    · show ((joinCols ss).zip ((joinCols ss).map (cellIn s.cols q.2))).lookup i = _
      rw [concat_cell q hi, hql]; rfl

/-- C81. The columns are distinct, and belong to the meters that have a non-empty chunk before the first empty round; with no
readings at all they are all the meters. -/
theorem C81_columns {ι : Type} [DecidableEq ι] (gens : List (ι × Gen MChunk)) (hnd : (gens.map Prod.fst).Nodup)
    (df : MFrame ι) (h : frameOfMeters gens = .ok df) :
    df.cols.Nodup ∧ (¬ Filled gens 0 → df.cols = gens.map Prod.fst ∧ df.rows = []) ∧
    (Filled gens 0 → ∀ i, i ∈ df.cols ↔ ∃ k c, (∀ j < k, Filled gens j) ∧ ChunkAt gens k i c) := by
  rcases frame_shape gens df h with ⟨rfl, h0⟩ | ⟨ss, hne, rfl, hseg, hend, hfull⟩
  · exact ⟨hnd, fun _ => ⟨rfl, rfl⟩, fun hf => absurd h0 ((filled_iff gens 0).1 hf)⟩
  · have hpos : 0 < ss.length := List.length_pos_iff.2 hne
    refine ⟨?_, fun hf => absurd ((filled_iff gens 0).2 (hfull 0 hpos)) hf, ?_⟩
    · apply joinCols_nodup
      intro s hs
      obtain ⟨k, hk⟩ := List.getElem?_of_mem hs
      rw [(segment_ok _ s ((roundAt_ids gens k).nodup hnd) (hseg k s hk)).1]
      exact (roundAt_ids gens k).nodup hnd
    · intro _ i
      show i ∈ joinCols ss ↔ _
      rw [mem_joinCols]
      constructor
      · rintro ⟨s, hs, hi⟩
        obtain ⟨k, hk⟩ := List.getElem?_of_mem hs
        have hkl : k < ss.length := by
          by_contra hn
          rw [List.getElem?_eq_none (by omega)] at hk; cases hk
        rw [(segment_ok _ s ((roundAt_ids gens k).nodup hnd) (hseg k s hk)).1] at hi
        obtain ⟨⟨j, l⟩, hl, rfl⟩ := List.mem_map.1 hi
        obtain ⟨c, hc, _⟩ := mem_roundAt.1 hl
        exact ⟨k, c, fun j hj => (filled_iff gens j).2 (hfull j (by omega)), hc⟩
      · rintro ⟨k, c, hfill, hc⟩
        have hmem : (i, c.sums) ∈ roundAt gens k := mem_roundAt.2 ⟨c, hc, rfl⟩
        have hk : k < ss.length := by
          by_contra hn
          rcases Nat.lt_or_ge ss.length k with hlt | hge
          · exact (filled_iff gens _).1 (hfill _ hlt) hend
          · have : k = ss.length := by omega
            rw [this, hend] at hmem; cases hmem
        obtain ⟨s, hs⟩ : ∃ s, ss[k]? = some s := ⟨ss[k], List.getElem?_eq_getElem hk⟩
        refine ⟨s, List.mem_of_getElem? hs, ?_⟩
        rw [(segment_ok _ s ((roundAt_ids gens k).nodup hnd) (hseg k s hs)).1]
        exact List.mem_map.2 ⟨_, hmem, rfl⟩

/-- No meter that is exhausted in round `k` raises. -/
def NoRaise {ι : Type} (gens : List (ι × Gen MChunk)) (k : Nat) : Prop :=
  ∀ p ∈ gens, p.2.out.length ≤ k → p.2.err = none

/-- The `k`-th chunks can be put side by side: they have the same times, or none has a time twice. -/
def Joinable {ι : Type} (gens : List (ι × Gen MChunk)) (k : Nat) : Prop :=
  (∀ i c j d, ChunkAt gens k i c → ChunkAt gens k j d → c.rows.map Prod.fst = d.rows.map Prod.fst) ∨
  ∀ i c, ChunkAt gens k i c → (c.rows.map Prod.fst).Nodup

theorem nextRound_iff {ι : Type} (gens : List (ι × Gen MChunk)) : (∃ r, nextRound gens = .ok r) ↔ NoRaise gens 0 := by
  unfold NoRaise
  induction gens with
  | nil => simp [nextRound]
  | cons p gens ih =>
    obtain ⟨i, out, err⟩ := p
    rw [List.forall_mem_cons, ← ih]
    cases out with
    | nil =>
      cases err with
      | some e => simp [nextRound]
      | none =>
        simp only [nextRound]
        cases nextRound gens with
        | error e => simp
        | ok r => simp
    | cons c out =>
      simp only [nextRound]
      cases nextRound gens with
      | error e => simp
      | ok r => simp

theorem noRaise_tail {ι : Type} (gens : List (ι × Gen MChunk)) (k : Nat) :
    NoRaise (gens.map (fun p => (p.1, (⟨p.2.out.tail, p.2.err⟩ : Gen MChunk)))) k ↔ NoRaise gens (k + 1) := by
  unfold NoRaise
  simp only [List.forall_mem_map, List.length_tail]
  constructor
  · intro h p hp hl; exact h p hp (by omega)
  · intro h p hp hl; exact h p hp (by omega)

theorem frameLoop_iff {ι : Type} (fuel : Nat) (gens : List (ι × Gen MChunk))
    (hf : (gens.map (fun g => g.2.out.length)).sum < fuel) :
    (∃ ss, frameLoop fuel gens = .ok ss) ↔ ∀ k, (∀ j < k, roundAt gens j ≠ []) →
      NoRaise gens k ∧ (roundAt gens k = [] ∨ ∃ s, segmentOf (roundAt gens k) = .ok s) := by
  induction fuel generalizing gens with
  | zero => omega
  | succ fuel ih =>
    rw [frameLoop]
    cases hr : nextRound gens with
    | error e =>
      have hn : ¬ NoRaise gens 0 := by
        rw [← nextRound_iff, hr]; simp
      simp only [reduceCtorEq, exists_false, false_iff]
      intro h
      exact hn (h 0 (by simp)).1
    | ok r =>
      obtain ⟨cs, gens'⟩ := r
      have hn : NoRaise gens 0 := (nextRound_iff gens).1 ⟨_, hr⟩
      obtain ⟨h1, h2⟩ := nextRound_ok gens cs gens' hr
      cases cs with
      | nil =>
        simp only [Except.ok.injEq, exists_eq', true_iff]
        intro k hk
        cases k with
        | zero => exact ⟨hn, Or.inl h1.symm⟩
        | succ k => exact absurd h1.symm (hk 0 (by omega))
      | cons c cs =>
        have ht := (total_tail gens).2 (by rw [← h1]; simp)
        have ihg := ih gens' (by rw [h2]; omega)
        rw [h2] at ihg
        simp only [roundAt_tail, noRaise_tail] at ihg
        rw [← h2] at ihg
        have hstep : (∃ ss, frameLoop (fuel) gens' = .ok ss) → (∀ k, (∀ j < k + 1, roundAt gens j ≠ []) →
            NoRaise gens (k + 1) ∧ (roundAt gens (k + 1) = [] ∨ ∃ s, segmentOf (roundAt gens (k + 1)) = .ok s)) := by
          intro hex k hk
          exact ihg.1 hex k (fun j hj => hk (j + 1) (by omega))
        cases hs : segmentOf (c :: cs) with
        | error e =>
          simp only [hs, reduceCtorEq, exists_false, false_iff]
          intro h
          rcases (h 0 (by simp)).2 with h0 | ⟨s, h0⟩
          · rw [← h1] at h0; cases h0
          · rw [← h1, hs] at h0; cases h0
        | ok s =>
          cases hl : frameLoop fuel gens' with
          | error e =>
            simp only [hs, hl, reduceCtorEq, exists_false, false_iff]
            intro h
            have : ∃ ss, frameLoop fuel gens' = .ok ss := ihg.2 (fun k hk => h (k + 1) (fun j hj => by
              cases j with
              | zero => rw [← h1]; simp
              | succ j => exact hk j (by omega)))
            rw [hl] at this
            simp at this
          | ok ss =>
            simp only [hs, hl, Except.ok.injEq, exists_eq', true_iff]
            intro k hk
            cases k with
            | zero => exact ⟨hn, Or.inr ⟨s, by rw [← h1]; exact hs⟩⟩
            | succ k => exact hstep ⟨ss, hl⟩ k hk

theorem sums_times (c : MChunk) : c.sums.map Prod.fst = c.rows.map Prod.fst := by
  unfold MChunk.sums
  rw [List.map_map]; rfl

theorem segment_iff {ι : Type} (gens : List (ι × Gen MChunk)) (k : Nat) :
    (roundAt gens k = [] ∨ ∃ s, segmentOf (roundAt gens k) = .ok s) ↔ Joinable gens k := by
  have hA : (∀ i c j d, ChunkAt gens k i c → ChunkAt gens k j d → c.rows.map Prod.fst = d.rows.map Prod.fst) ↔
      ∀ p ∈ roundAt gens k, ∀ q ∈ roundAt gens k, p.2.map Prod.fst = q.2.map Prod.fst := by
    constructor
    · rintro h ⟨i, l⟩ hp ⟨j, m⟩ hq
      obtain ⟨c, hc, rfl⟩ := mem_roundAt.1 hp
      obtain ⟨d, hd, rfl⟩ := mem_roundAt.1 hq
      simp only [sums_times]
      exact h i c j d hc hd
    · intro h i c j d hc hd
      have := h _ (mem_roundAt.2 ⟨c, hc, rfl⟩) _ (mem_roundAt.2 ⟨d, hd, rfl⟩)
      simpa only [sums_times] using this
  have hB : (∀ i c, ChunkAt gens k i c → (c.rows.map Prod.fst).Nodup) ↔
      ∀ p ∈ roundAt gens k, (p.2.map Prod.fst).Nodup := by
    constructor
    · rintro h ⟨i, l⟩ hp
      obtain ⟨c, hc, rfl⟩ := mem_roundAt.1 hp
      simp only [sums_times]
      exact h i c hc
    · intro h i c hc
      have := h _ (mem_roundAt.2 ⟨c, hc, rfl⟩)
      simpa only [sums_times] using this
  unfold Joinable
  rw [hA, hB]
  cases roundAt gens k with
  | nil => simp
  | cons c cs =>
    simp only [segmentOf]
    by_cases h1 : ∀ d ∈ cs, d.2.map Prod.fst = c.2.map Prod.fst
    · rw [if_pos h1]
      simp only [Except.ok.injEq, exists_eq', or_true, true_iff]
      left
      have : ∀ d ∈ c :: cs, d.2.map Prod.fst = c.2.map Prod.fst := by
        intro d hd
        rcases List.mem_cons.1 hd with rfl | hd
        · rfl
        · exact h1 d hd
      intro p hp q hq
      rw [this p hp, this q hq]
    · rw [if_neg h1]
      by_cases h2 : ∀ d ∈ c :: cs, (d.2.map Prod.fst).Nodup
      · rw [if_pos h2]
        simp only [Except.ok.injEq, exists_eq', or_true, true_iff]
        exact Or.inr h2
      · rw [if_neg h2]
        simp only [reduceCtorEq, exists_false, or_false, false_iff]
        rintro (h | h)
        · exact h1 (fun d hd => h d (List.mem_cons_of_mem _ hd) c List.mem_cons_self)
        · exact h2 h

/-- C81. The call succeeds exactly if, in every round up to the first empty one, no meter raises and the chunks can be put
side by side. -/
theorem C81_succeeds {ι : Type} [DecidableEq ι] (gens : List (ι × Gen MChunk)) :
    (∃ df, frameOfMeters gens = .ok df) ↔
      ∀ k, (∀ j < k, Filled gens j) → NoRaise gens k ∧ Joinable gens k := by
  have hl := frameLoop_iff ((gens.map (fun g => g.2.out.length)).sum + 1) gens (by omega)
  simp only [segment_iff, ← filled_iff] at hl
  rw [← hl]
  unfold frameOfMeters
  cases frameLoop ((gens.map (fun g => g.2.out.length)).sum + 1) gens with
  | error e => simp
  | ok ss => cases ss <;> simp

/-- C81. When the chunks of the meters are aligned (the `k`-th chunks of all meters lie in the `k`-th of consecutive windows),
the times of the frame increase strictly: there is one row per time. -/
theorem C81_one_row_per_time {ι : Type} [DecidableEq ι] (gens : List (ι × Gen MChunk)) (hnd : (gens.map Prod.fst).Nodup)
    (df : MFrame ι) (h : frameOfMeters gens = .ok df) (w : Nat → Int) (hw : Monotone w)
    (hin : ∀ k i c, ChunkAt gens k i c → ∀ r ∈ c.rows, w k ≤ r.1 ∧ r.1 < w (k + 1))
    (hinc : ∀ k i c, ChunkAt gens k i c → (c.rows.map Prod.fst).Pairwise (· < ·)) :
    (df.rows.map Prod.fst).Pairwise (· < ·) := by
  rcases frame_shape gens df h with ⟨rfl, h0⟩ | ⟨ss, hne, rfl, hseg, hend, hfull⟩
  · exact .nil
  · have e : (concatFrames ss).rows.map Prod.fst = (ss.map (fun s => s.rows.map Prod.fst)).flatten := by
      unfold concatFrames
      rw [List.map_flatMap, List.flatMap_def]
      congr 1
      apply List.map_congr_left
      intro s _
      rw [List.map_map]
      rfl
    rw [e, List.pairwise_flatten]
    constructor
    · intro l hl
      obtain ⟨s, hs, rfl⟩ := List.mem_map.1 hl
      obtain ⟨k, hk⟩ := List.getElem?_of_mem hs
      apply (segment_ok _ s ((roundAt_ids gens k).nodup hnd) (hseg k s hk)).2.2.2.2
      rintro ⟨i, l⟩ hc
      obtain ⟨c, hc', rfl⟩ := mem_roundAt.1 hc
      simp only [sums_times]
      exact hinc k i c hc'
    · rw [List.pairwise_map, List.pairwise_iff_getElem]
      intro a b ha hb hab x hx y hy
      have key : ∀ k (hk : k < ss.length), ∀ x ∈ ss[k].rows.map Prod.fst, w k ≤ x ∧ x < w (k + 1) := by
        intro k hk x hx
        obtain ⟨row, hr, rfl⟩ := List.mem_map.1 hx
        obtain ⟨i, l, v, hl, hv⟩ := (segment_ok _ _ ((roundAt_ids gens k).nodup hnd)
          (hseg k ss[k] (List.getElem?_eq_getElem hk))).2.2.2.1 row hr
        obtain ⟨c, hc, rfl⟩ := mem_roundAt.1 hl
        obtain ⟨r, hr, hrt, _⟩ := mem_sums.1 hv
        rw [← hrt]
        exact hin k i c hc r hr
      have h1 := (key a ha x hx).2
      have h2 := (key b hb y hy).1
      have h3 := hw (show a + 1 ≤ b from hab)
      omega

/-- C81. With aligned chunks the cell of a meter at a time is the reading of the meter, and NaN only if the meter has no
reading at that time in the rounds read. -/
theorem C81_aligned {ι : Type} [DecidableEq ι] (gens : List (ι × Gen MChunk)) (hnd : (gens.map Prod.fst).Nodup)
    (df : MFrame ι) (h : frameOfMeters gens = .ok df) (w : Nat → Int) (hw : Monotone w)
    (hin : ∀ k i c, ChunkAt gens k i c → ∀ r ∈ c.rows, w k ≤ r.1 ∧ r.1 < w (k + 1))
    (hinc : ∀ k i c, ChunkAt gens k i c → (c.rows.map Prod.fst).Pairwise (· < ·))
    (row : Int × List (Option Rat)) (i : ι) (v : Option Rat) (hs : Shows df row i v)
    (k : Nat) (hfill : ∀ j < k, Filled gens j) (c : MChunk) (hc : ChunkAt gens k i c)
    (r : Int × List (Option Rat)) (hr : r ∈ c.rows) (ht : r.1 = row.1) : v = some (skipSum r.2) := by
  obtain ⟨row', h1, h2, h3⟩ := C81_complete gens hnd df h k hfill i c hc r hr
  have hp := C81_one_row_per_time gens hnd df h w hw hin hinc
  have heq : row' = row := by
    have hnd' : (df.rows.map Prod.fst).Nodup := hp.imp (fun h => ne_of_lt h)
    exact List.inj_on_of_nodup_map hnd' h2 hs.1 (h1.trans ht)
  subst heq
  have := hs.2
  rw [h3] at this
  simpa using this.symm

/-- C81. Every meter with a column has a cell in every row. -/
theorem C81_total {ι : Type} [DecidableEq ι] (gens : List (ι × Gen MChunk))
    (df : MFrame ι) (h : frameOfMeters gens = .ok df) (row : Int × List (Option Rat)) (hr : row ∈ df.rows) (i : ι)
    (hi : i ∈ df.cols) : ∃ v, Shows df row i v := by
  rcases frame_shape gens df h with ⟨rfl, h0⟩ | ⟨ss, hne, rfl, hseg, hend, hfull⟩
  · cases hr
  · have hr' := hr
    unfold concatFrames at hr'
    simp only at hr'
    obtain ⟨s, hs, hr'⟩ := List.mem_flatMap.1 hr'
    obtain ⟨r, hrs, rfl⟩ := List.mem_map.1 hr'
    exact ⟨_, hr, concat_cell (s := s) r hi⟩

/-- C81. Every row has a reading of some meter at its time. -/
theorem C81_rows {ι : Type} [DecidableEq ι] (gens : List (ι × Gen MChunk)) (hnd : (gens.map Prod.fst).Nodup)
    (df : MFrame ι) (h : frameOfMeters gens = .ok df) (row : Int × List (Option Rat)) (hr : row ∈ df.rows) :
    ∃ k i c, (∀ j < k, Filled gens j) ∧ ChunkAt gens k i c ∧ row.1 ∈ c.rows.map Prod.fst := by
  rcases frame_shape gens df h with ⟨rfl, h0⟩ | ⟨ss, hne, rfl, hseg, hend, hfull⟩
  · cases hr
  · unfold concatFrames at hr
    simp only at hr
    obtain ⟨s, hs, hr'⟩ := List.mem_flatMap.1 hr
    obtain ⟨r, hrs, rfl⟩ := List.mem_map.1 hr'
    obtain ⟨k, hk⟩ := List.getElem?_of_mem hs
    have hkl : k < ss.length := by
      by_contra hn
      rw [List.getElem?_eq_none (by omega)] at hk; cases hk
    obtain ⟨i, l, v, hl, hv⟩ := (segment_ok _ _ ((roundAt_ids gens k).nodup hnd) (hseg k s hk)).2.2.2.1 r hrs
    obtain ⟨c, hc, rfl⟩ := mem_roundAt.1 hl
    refine ⟨k, i, c, fun j hj => (filled_iff gens j).2 (hfull j (by omega)), hc, ?_⟩
    rw [← sums_times]
    exact List.mem_map.2 ⟨_, hv, rfl⟩

/-- Two meters with aligned chunks; the second has no reading at time 1 and none in the last window. -/
def twoMeters : List (Nat × Gen MChunk) :=
  [(1, ⟨[⟨1, [(0, [some 10]), (1, [some 11])]⟩, ⟨1, [(2, [some 12])]⟩], none⟩),
   (2, ⟨[⟨2, [(0, [some 20, some 1])]⟩], none⟩)]

example : frameOfMeters twoMeters = .ok ⟨[1, 2], [(0, [some 10, some 21]), (1, [some 11, none]), (2, [some 12, none])]⟩ := by
  decide +kernel

/-- The windows of the example. -/
example : Monotone (fun k : Nat => 2 * (k : Int)) := fun a b h => by simp only; omega

/-- C81. When two meters yield different numbers of readings per chunk, the same time appears in two rows, each with a NaN:
the rows are not the readings at a time. -/
theorem C81_misaligned_counterexample :
    frameOfMeters ([(1, ⟨[⟨1, [(0, [some 1]), (1, [some 2])]⟩], none⟩),
      (2, ⟨[⟨1, [(0, [some 3])]⟩, ⟨1, [(1, [some 4])]⟩], none⟩)] : List (Nat × Gen MChunk)) =
      .ok ⟨[1, 2], [(0, [some 1, some 3]), (1, [some 2, none]), (1, [none, some 4])]⟩ := by decide +kernel

/-- C81. A round in which all meters yield an empty chunk (a gap in the data) ends the frame: the readings after it are
missing. -/
theorem C81_gap_counterexample :
    frameOfMeters ([(1, ⟨[⟨1, [(0, [some 1])]⟩, ⟨1, []⟩, ⟨1, [(9, [some 2])]⟩], none⟩)] : List (Nat × Gen MChunk)) =
      .ok ⟨[1], [(0, [some 1])]⟩ := by decide +kernel

/-- C81. A NaN reading appears as 0. -/
theorem C81_nan_counterexample :
    frameOfMeters ([(1, ⟨[⟨1, [(0, [none])]⟩], none⟩)] : List (Nat × Gen MChunk)) = .ok ⟨[1], [(0, [some 0])]⟩ := by
  decide +kernel

/-- C81. The frame of a meter without any reading, next to one with readings, lacks a column. -/
theorem C81_column_counterexample :
    frameOfMeters ([(1, ⟨[⟨1, [(0, [some 1])]⟩], none⟩), (2, ⟨[], none⟩)] : List (Nat × Gen MChunk)) =
      .ok ⟨[1], [(0, [some 1])]⟩ := by decide +kernel

end Nilmtk
