import Verif.Lemmas.TimeFrameGroup
import Verif.Props.TimeFrame
import Mathlib.Order.Interval.Finset.Basic
import Mathlib.Data.Int.Interval
/-!
Properties C06, C10, C11: `merge_timeframes` and `TimeFrameGroup`.
-/
namespace Nilmtk
open TF

/-! ### C06: merge_timeframes -/

theorem adjacent_next {f last : TF} {s e s' e' gap : Int} (hl : HalfOpen last s e) (hf : HalfOpen f s' e')
    (h1 : s < e) (h2 : s' < e') (h3 : e ≤ s') (hg : 0 ≤ gap) :
    f.adjacent last gap = .ok (decide (s' - e ≤ gap)) := by
  obtain ⟨a1, a2, a3, a4⟩ := hl
  obtain ⟨b1, b2, b3, b4⟩ := hf
  unfold TF.adjacent
  rw [if_neg (by omega)]
  simp only [a1, b1, a3, a4, b3, b4, Bool.or_self, Bool.false_eq_true, if_false]
  rw [if_neg (by omega)]
  congr 1
  rw [decide_eq_decide]; omega

theorem union_next {f last : TF} {s e s' e' : Int} (hl : HalfOpen last s e) (hf : HalfOpen f s' e')
    (h1 : s < e) (h2 : s' < e') (h3 : e ≤ s') :
    f.union last = .ok (mk' (some s) (some e')) := by
  obtain ⟨a1, a2, a3, a4⟩ := hl
  obtain ⟨b1, b2, b3, b4⟩ := hf
  simp only [TF.union, a3, a4, b3, b4]
  have h4 : min s' s = s := by omega
  have h5 : max e' e = e' := by omega
  rw [h4, h5]
  apply ctor_ok
  intro x y hx hy; cases hx; cases hy; omega

theorem inSmallHole_cons {gap : Int} {f : TF} {fs : List TF} {t : Int} (h : InSmallHole gap fs t) :
    InSmallHole gap (f :: fs) t := by
  obtain ⟨pre, x, y, post, e, s', h1, h2⟩ := h
  exact ⟨f :: pre, x, y, post, e, s', by rw [h1]; rfl, h2⟩

theorem mergeLoop_spec (gap : Int) (hg : 0 ≤ gap) (last : TF) (ls le hi : Int) (fs : List TF)
    (hl : HalfOpen last ls le) (hlt : ls < le) (hw : Within le hi fs) :
    ∃ out g, mergeLoop gap last fs = .ok (g :: out) ∧ g.start = some ls ∧ SeparatedBy gap (g :: out) ∧
      (∀ t, Covered (last :: fs) t → Covered (g :: out) t) ∧
      (∀ t, Covered (g :: out) t → Covered (last :: fs) t ∨ InSmallHole gap (last :: fs) t) := by
  induction fs generalizing last ls le with
  | nil =>
    exact ⟨[], last, rfl, hl.2.2.1, Chain.single last ls le hl hlt, fun _ h => h, fun _ h => Or.inl h⟩
  | cons f fs ih =>
    cases hw with
    | cons _ _ s' e' _ _ hf h3 h4 hw' =>
      simp only [mergeLoop, adjacent_next hl hf hlt h4 h3 hg]
      by_cases hadj : s' - le ≤ gap
      · simp only [hadj, decide_true, union_next hl hf hlt h4 h3]
        have hu : HalfOpen (mk' (some ls) (some e')) ls e' := ⟨rfl, rfl, rfl, rfl⟩
        obtain ⟨out, g, o1, o2, o3, o4, o5⟩ := ih _ ls e' hu (by omega) hw'
        refine ⟨out, g, o1, o2, o3, ?_, ?_⟩
        · intro t ht
          apply o4
          rw [covered_cons, covered_cons, mem_halfOpen hl, mem_halfOpen hf] at ht
          rw [covered_cons, mem_halfOpen hu]
          rcases ht with h | h | h
          · left; omega
          · left; omega
          · right; exact h
        · intro t ht
          rcases o5 t ht with h | ⟨pre, x, y, post, e, s'', h1, h2, q3, q4⟩
          · rw [covered_cons, mem_halfOpen hu] at h
            rw [covered_cons, covered_cons, mem_halfOpen hl, mem_halfOpen hf]
            rcases h with h | h
            · by_cases c1 : t < le
              · left; left; omega
              · by_cases c2 : s' ≤ t
                · left; right; left; omega
                · right
                  exact ⟨[], last, f, fs, le, s', rfl, hl.2.2.2, hf.2.2.1, by omega, by omega, hadj⟩
            · left; right; right; exact h
          · right
            cases pre with
            | nil =>
              simp only [List.nil_append, List.cons.injEq] at h1
              obtain ⟨rfl, rfl⟩ := h1
              have : e = e' := by
                have := hu.2.2.2.symm.trans h2; simpa [eq_comm] using this
              subst this
              exact ⟨[last], f, y, post, e, s'', rfl, hf.2.2.2, q3, q4⟩
            | cons p pre =>
              simp only [List.cons_append, List.cons.injEq] at h1
              obtain ⟨rfl, rfl⟩ := h1
              exact ⟨last :: f :: pre, x, y, post, e, s'', rfl, h2, q3, q4⟩
      · simp only [hadj, decide_false]
        obtain ⟨out, g, o1, o2, o3, o4, o5⟩ := ih f s' e' hf h4 hw'
        refine ⟨g :: out, last, by rw [o1], hl.2.2.1, ?_, ?_, ?_⟩
        · exact Chain.cons last g out ls le s' hl hlt o2 (by omega) o3
        · intro t ht
          rw [covered_cons] at ht ⊢
          exact ht.imp id (o4 t)
        · intro t ht
          rw [covered_cons] at ht
          rw [covered_cons (fs := f :: fs)]
          rcases ht with h | h
          · exact Or.inl (Or.inl h)
          · rcases o5 t h with h | h
            · exact Or.inl (Or.inr h)
            · exact Or.inr (inSmallHole_cons h)

/-- C06. Merging a sorted list of non-overlapping bounded half-open frames succeeds; everything
covered stays covered; whatever is added lies in a hole of at most `gap` between consecutive input
frames; and the output frames are separated by more than `gap`. -/
theorem C06_merge_coverage (fs : List TF) (gap : Int) (hg : 0 ≤ gap) (h : SortedDisjoint fs) :
    ∃ out, mergeTimeframes fs gap = .ok out ∧
      (∀ t, Covered fs t → Covered out t) ∧
      (∀ t, Covered out t → Covered fs t ∨ InSmallHole gap fs t) ∧
      SeparatedBy gap out := by
  obtain ⟨lo, hi, hw, _⟩ := within_of_chain h
  match fs, h, hw with
  | [], _, _ => exact ⟨[], rfl, fun _ h => h, fun _ h => Or.inl h, Chain.nil⟩
  | [f], _, hw =>
    cases hw with
    | cons _ _ s e _ _ hf h3 h4 _ =>
      exact ⟨[f], rfl, fun _ h => h, fun _ h => Or.inl h, Chain.single f s e hf h4⟩
  | f :: g :: rest, _, hw =>
    cases hw with
    | cons _ _ s e _ _ hf h3 h4 hw' =>
      obtain ⟨out, x, o1, _, o3, o4, o5⟩ := mergeLoop_spec gap hg f s e hi (g :: rest) hf h4 hw'
      exact ⟨x :: out, o1, o4, o5, o3⟩

theorem mergeLoop_separated (gap : Int) (hg : 0 ≤ gap) (f : TF) (fs : List TF)
    (h : SeparatedBy gap (f :: fs)) : mergeLoop gap f fs = .ok (f :: fs) := by
  induction fs generalizing f with
  | nil => rfl
  | cons g fs ih =>
    cases h with
    | cons _ _ _ s e s' hf hse hgs hrel hc =>
      have : ∃ e', HalfOpen g s' e' ∧ s' < e' := by
        cases hc with
        | single _ s2 e2 hg2 hlt =>
          have : s2 = s' := by have := hg2.2.2.1.symm.trans hgs; simpa using this
          subst this; exact ⟨e2, hg2, hlt⟩
        | cons _ _ _ s2 e2 _ hg2 hlt _ _ _ =>
          have : s2 = s' := by have := hg2.2.2.1.symm.trans hgs; simpa using this
          subst this; exact ⟨e2, hg2, hlt⟩
      obtain ⟨e', hg', hlt'⟩ := this
      simp only [mergeLoop, adjacent_next hf hg' hse hlt' (by omega) hg]
      rw [show decide (s' - e ≤ gap) = false by simp; omega]
      simp only [ih g hc]

/-- C06: merging is idempotent (and more: a list already separated by more than `gap` is returned
unchanged). -/
theorem C06_merge_idempotent (fs out : List TF) (gap : Int) (hg : 0 ≤ gap) (h : SortedDisjoint fs)
    (ho : mergeTimeframes fs gap = .ok out) : mergeTimeframes out gap = .ok out := by
  obtain ⟨out', h1, _, _, h2⟩ := C06_merge_coverage fs gap hg h
  rw [ho] at h1; cases h1
  match out, h2 with
  | [], _ => rfl
  | [f], _ => rfl
  | f :: g :: rest, h2 => exact mergeLoop_separated gap hg f (g :: rest) h2

/-- C06, error branch: a negative gap fails the assertion as soon as there are two frames. -/
theorem C06_merge_negative_gap (f g : TF) (fs : List TF) (gap : Int) (hg : gap < 0) :
    mergeTimeframes (f :: g :: fs) gap = .error .assertionError := by
  simp [mergeTimeframes, mergeLoop, TF.adjacent, hg]

/-- C06: two bounded half-open frames are adjacent exactly when one starts at most `gap` after (and
not before) the end of the other, whichever way round they are given. -/
theorem C06_adjacent_iff (a b : TF) (sa ea sb eb gap : Int) (hg : 0 ≤ gap) (ha : HalfOpen a sa ea)
    (hb : HalfOpen b sb eb) :
    (a.adjacent b gap = .ok true ↔ (ea ≤ sb ∧ sb - ea ≤ gap) ∨ (eb ≤ sa ∧ sa - eb ≤ gap)) ∧
    a.adjacent b gap = b.adjacent a gap := by
  obtain ⟨a1, a2, a3, a4⟩ := ha
  obtain ⟨b1, b2, b3, b4⟩ := hb
  simp only [TF.adjacent, a1, b1, a3, a4, b3, b4, if_neg (show ¬ gap < 0 by omega), Bool.or_self,
    Bool.false_eq_true, if_false]
  constructor
  · split
    · simp; omega
    · simp; omega
  · split <;> split
    · rfl
    · symm; simp; omega
    · simp; omega
    · congr 1; rw [decide_eq_decide]; omega

/-- C06: the other cases of `adjacent`. A negative gap fails the assertion; an empty frame is adjacent to nothing; bounds are
looked at from left to right, and only as far as needed, a missing one is a `TypeError`. -/
theorem C06_adjacent_cases (a b : TF) (gap : Int) :
    (gap < 0 → a.adjacent b gap = .error .assertionError) ∧
    (0 ≤ gap → (a.empty = true ∨ b.empty = true) → a.adjacent b gap = .ok false) ∧
    (0 ≤ gap → a.empty = false → b.empty = false →
      (b.start = none ∨ a.stop = none → a.adjacent b gap = .error .typeError) ∧
      (∀ s e, b.start = some s → a.stop = some e →
        (e ≤ s ∧ s - e ≤ gap → a.adjacent b gap = .ok true) ∧
        (¬ (e ≤ s ∧ s - e ≤ gap) → a.start = none ∨ b.stop = none → a.adjacent b gap = .error .typeError))) := by
  refine ⟨fun h => by unfold TF.adjacent; rw [if_pos h], fun h he => ?_, fun h ha hb => ⟨fun hn => ?_, fun s e hs he => ⟨fun ht => ?_, fun ht hn => ?_⟩⟩⟩
  · unfold TF.adjacent
    rw [if_neg (by omega), if_pos (by simpa using he)]
  · unfold TF.adjacent
    rw [if_neg (by omega), if_neg (by simp [ha, hb])]
    rcases hn with hn | hn
    · rw [hn]
    · rw [hn]; cases b.start <;> rfl
  · unfold TF.adjacent
    rw [if_neg (by omega), if_neg (by simp [ha, hb])]
    simp only [hs, he]
    rw [if_pos (by omega)]
  · unfold TF.adjacent
    rw [if_neg (by omega), if_neg (by simp [ha, hb])]
    simp only [hs, he]
    rw [if_neg (by omega)]
    rcases hn with hn | hn
    · rw [hn]
    · rw [hn]; cases a.start <;> rfl

/-- A frame without bounds next to a bounded one. -/
example : TF.blank.adjacent (mk' (some 0) (some 1)) 5 = .error .typeError :=
  ((C06_adjacent_cases TF.blank (mk' (some 0) (some 1)) 5).2.2 (by decide) rfl rfl).1 (Or.inr rfl)

/-- C06: the sortedness/disjointness hypothesis matters: overlapping frames are not merged. -/
theorem C06_overlapping_not_merged_counterexample :
    mergeTimeframes [mk' (some 0) (some 10), mk' (some 5) (some 15)] 0 =
      .ok [mk' (some 0) (some 10), mk' (some 5) (some 15)] := by decide +kernel

example : SortedDisjoint [mk' (some 0) (some 10), mk' (some 10) (some 15), mk' (some 17) (some 20)] :=
  Chain.cons _ _ _ 0 10 10 ⟨rfl, rfl, rfl, rfl⟩ (by decide) rfl (by decide)
    (Chain.cons _ _ _ 10 15 17 ⟨rfl, rfl, rfl, rfl⟩ (by decide) rfl (by decide)
      (Chain.single _ 17 20 ⟨rfl, rfl, rfl, rfl⟩ (by decide)))

/-! ### C10: group intersection -/

/-- C10: an instant is covered by the intersection of two groups of half-open frames iff it is
covered by both groups. -/
theorem C10_group_intersection_pointwise (as bs : List TF) (ha : ∀ a ∈ as, a.includeEnd = false)
    (hb : ∀ b ∈ bs, b.includeEnd = false) (t : Int) :
    Covered (groupIntersection as bs) t ↔ Covered as t ∧ Covered bs t := by
  constructor
  · rintro ⟨f, hf, hm⟩
    simp only [groupIntersection, List.mem_flatMap, List.mem_filter, List.mem_map] at hf
    obtain ⟨a, h1, ⟨b, h2, rfl⟩, _⟩ := hf
    rw [C02_intersection_halfopen a b t (ha a h1) (hb b h2)] at hm
    exact ⟨⟨a, h1, hm.1⟩, ⟨b, h2, hm.2⟩⟩
  · rintro ⟨⟨a, h1, m1⟩, ⟨b, h2, m2⟩⟩
    have hm := (C02_intersection_halfopen a b t (ha a h1) (hb b h2)).2 ⟨m1, m2⟩
    refine ⟨a.intersection b, ?_, hm⟩
    simp only [groupIntersection, List.mem_flatMap, List.mem_filter, List.mem_map]
    exact ⟨a, h1, ⟨b, h2, rfl⟩, by rw [hm.1]; rfl⟩

/-- C10: no empty frame appears in a group intersection. -/
theorem C10_group_intersection_nonempty (as bs : List TF) :
    ∀ f ∈ groupIntersection as bs, f.empty = false := by
  intro f hf
  simp only [groupIntersection, List.mem_flatMap, List.mem_filter] at hf
  obtain ⟨_, _, _, h⟩ := hf
  simpa using h

/-- C10: masking keeps groups sorted and disjoint, and never increases the uptime of either. -/
theorem C10_group_intersection_sorted (as bs : List TF) (ha : SortedDisjoint as) (hb : SortedDisjoint bs) :
    SortedDisjoint (groupIntersection as bs) ∧
    ∃ u ua ub, uptime (groupIntersection as bs) = .ok u ∧ uptime as = .ok ua ∧ uptime bs = .ok ub ∧
      0 ≤ u ∧ u ≤ ua ∧ u ≤ ub ∧ uptime (groupIntersection bs as) = .ok u := by
  obtain ⟨lo, hi, wa, _⟩ := within_of_chain ha
  obtain ⟨lo', hi', wb, _⟩ := within_of_chain hb
  have w := groupIntersection_within wa wb
  have w' := groupIntersection_within wb wa
  refine ⟨chain_of_within w, _, _, _, uptime_eq _ w.timedelta, uptime_eq _ wa.timedelta,
    uptime_eq _ wb.timedelta, w.tdSum_le.1, tdSum_groupIntersection_le_left wa wb, ?_, ?_⟩
  · rw [tdSum_groupIntersection_comm]; exact tdSum_groupIntersection_le_left wb wa
  · rw [uptime_eq _ w'.timedelta, tdSum_groupIntersection_comm]

/-! ### C11: uptime and remove_shorter_than -/

/-- C11: for sorted, disjoint frames inside `[lo, hi)` uptime is the number of instants covered
(the measure of the covered set). -/
theorem C11_uptime_is_measure (fs : List TF) (lo hi : Int) (h : SortedDisjoint fs)
    (hlo : ∀ t, Covered fs t → lo ≤ t ∧ t < hi) [DecidablePred (Covered fs)] :
    uptime fs = .ok (((Finset.Ico lo hi).filter (Covered fs)).card : Int) := by
  obtain ⟨lo', hi', w, _⟩ := within_of_chain h
  rw [uptime_eq _ w.timedelta]
  congr 1
  classical
  have key : ∀ (lo' hi' : Int) (fs : List TF), Within lo' hi' fs →
      ∃ S : Finset Int, (∀ t, t ∈ S ↔ Covered fs t) ∧ (S.card : Int) = tdSum fs := by
    intro lo' hi' fs w
    induction w with
    | nil => exact ⟨∅, by simp [Covered], by simp [tdSum]⟩
    | cons lo hi s e f fs hf h3 h4 hw ih =>
      obtain ⟨S, h5, h6⟩ := ih
      refine ⟨Finset.Ico s e ∪ S, ?_, ?_⟩
      · intro t; rw [covered_cons, mem_halfOpen hf]; simp [h5]
      · rw [Finset.card_union_of_disjoint]
        · simp [tdSum, timedelta_halfOpen hf] at *
          omega
        · rw [Finset.disjoint_left]
          intro t ht hS
          have := hw.mem ((h5 t).1 hS)
          simp at ht; omega
  obtain ⟨S, h1, h2⟩ := key _ _ _ w
  rw [← h2]
  congr 2
  ext t
  simp only [Finset.mem_filter, Finset.mem_Ico]
  rw [h1]
  constructor
  · intro h; exact ⟨hlo t h, h⟩
  · intro h; exact h.2

/-- C11: uptime is additive over concatenation and does not depend on the order of the frames;
it raises `TypeError` exactly when some frame is open-ended. -/
theorem C11_uptime_additive (fs gs : List TF) (u v : Int) (hu : uptime fs = .ok u) (hv : uptime gs = .ok v) :
    uptime (fs ++ gs) = .ok (u + v) ∧ ∀ hs, hs.Perm fs → uptime hs = .ok u := by
  have hok : ∀ l w, uptime l = .ok w → (∀ f ∈ l, f.timedelta ≠ none) := by
    intro l w hw f hf hn
    rw [uptime, uptimeFrom_error l ⟨f, hf, hn⟩] at hw; cases hw
  have h1 := hok _ _ hu
  have h2 := hok _ _ hv
  rw [uptime_eq _ h1] at hu
  rw [uptime_eq _ h2] at hv
  cases hu; cases hv
  constructor
  · rw [uptime_eq, tdSum_append]
    intro f hf
    rcases List.mem_append.1 hf with h | h
    · exact h1 f h
    · exact h2 f h
  · intro hs hp
    rw [uptime_eq]
    · congr 1; unfold tdSum; exact (hp.map _).sum_eq
    · intro f hf; exact h1 f (hp.mem_iff.1 hf)

theorem C11_uptime_error_iff (fs : List TF) :
    uptime fs = .error .typeError ↔ ∃ f ∈ fs, f.timedelta = none := by
  constructor
  · intro h
    by_contra hc
    rw [uptime_eq] at h
    · cases h
    · intro f hf hn; exact hc ⟨f, hf, hn⟩
  · intro h; exact uptimeFrom_error fs h 0

/-- C11: an empty frame (as produced by `intersection`) counts zero. -/
theorem C11_empty_frame_counts_zero (f : TF) (fs : List TF) (h : WellFormed f) (he : f.empty = true) :
    uptime (f :: fs) = uptime fs := by
  obtain ⟨h1, h2⟩ := h.2 he
  simp [uptime, uptimeFrom, TF.timedelta, h1, h2, he]

theorem tdSum_tiles {s e : Int} {fs : List TF} (h : Tiles s e fs) :
    tdSum fs = e - s ∧ ∀ f ∈ fs, f.timedelta ≠ none := by
  induction h with
  | nil => simp [tdSum]
  | cons s m e f fs hf hsm ht ih =>
    constructor
    · simp [tdSum, timedelta_halfOpen hf] at *; omega
    · intro g hg
      rcases List.mem_cons.1 hg with rfl | hg
      · rw [timedelta_halfOpen hf]; simp
      · exact ih.2 g hg

/-- C11: splitting every frame leaves the uptime unchanged. -/
theorem C11_uptime_split (fs : List TF) (thr : Int) (hthr : 0 < thr)
    (h : ∀ f ∈ fs, ∃ s e, HalfOpen f s e ∧ s < e) :
    (splitTimeframes fs thr).err = none ∧ uptime (splitTimeframes fs thr).out = uptime fs := by
  have key : (splitTimeframes fs thr).err = none ∧ tdSum (splitTimeframes fs thr).out = tdSum fs ∧
      ∀ f ∈ (splitTimeframes fs thr).out, f.timedelta ≠ none := by
    induction fs with
    | nil => simp [splitTimeframes, Gen.done]
    | cons f fs ih =>
      obtain ⟨i1, i2, i3⟩ := ih (fun g hg => h g (List.mem_cons_of_mem _ hg))
      obtain ⟨s, e, hf, hse⟩ := h f List.mem_cons_self
      obtain ⟨j1, j2, _, _⟩ := C05_split_tiles f s e thr hf hse hthr
      obtain ⟨k1, k2⟩ := tdSum_tiles j2
      simp only [splitTimeframes, Gen.append, j1]
      refine ⟨i1, ?_, ?_⟩
      · rw [tdSum_append, k1, i2]; simp [tdSum, timedelta_halfOpen hf]
      · intro g hg
        rcases List.mem_append.1 hg with h | h
        · exact k2 g h
        · exact i3 g h
  obtain ⟨h1, h2, h3⟩ := key
  refine ⟨h1, ?_⟩
  rw [uptime_eq _ h3, h2, uptime_eq]
  intro f hf
  obtain ⟨s, e, hh, _⟩ := h f hf
  rw [timedelta_halfOpen hh]; simp

/-- The frame lasts at least `thr`. -/
def lastsAtLeast (thr : Int) (f : TF) : Bool :=
  match f.timedelta with
  | some d => decide (thr ≤ d)
  | none => false

/-- C11: `remove_shorter_than` keeps exactly the frames lasting at least the threshold, in order
(and raises `AttributeError` exactly when some frame is open-ended). -/
theorem C11_remove_shorter_than (fs : List TF) (thr : Int) :
    ((∀ f ∈ fs, f.timedelta ≠ none) → removeShorterThan fs thr = .ok (fs.filter (lastsAtLeast thr))) ∧
    ((∃ f ∈ fs, f.timedelta = none) → removeShorterThan fs thr = .error .attributeError) := by
  induction fs with
  | nil => simp [removeShorterThan]
  | cons f fs ih =>
    rcases htd : f.timedelta with _ | d
    · constructor
      · intro h; exact absurd htd (h f List.mem_cons_self)
      · intro _; simp [removeShorterThan, htd]
    · constructor
      · intro h
        have := ih.1 (fun g hg => h g (List.mem_cons_of_mem _ hg))
        simp only [removeShorterThan, htd, this, List.filter_cons]
        by_cases hd : d ≥ thr
        · have : lastsAtLeast thr f = true := by simp [lastsAtLeast, htd]; omega
          simp [hd, this]
        · have : lastsAtLeast thr f = false := by simp [lastsAtLeast, htd]; omega
          simp [hd, this]
      · rintro ⟨g, hg, hn⟩
        rcases List.mem_cons.1 hg with rfl | hg
        · rw [htd] at hn; cases hn
        · simp [removeShorterThan, htd, ih.2 ⟨g, hg, hn⟩]

/-- C11: removing with two thresholds equals removing with the larger one; in particular the
operation is idempotent. -/
theorem C11_remove_shorter_than_compose (fs gs : List TF) (t1 t2 : Int)
    (h1 : removeShorterThan fs t1 = .ok gs) :
    removeShorterThan gs t2 = removeShorterThan fs (max t1 t2) ∧ removeShorterThan gs t1 = .ok gs := by
  have hall : ∀ f ∈ fs, f.timedelta ≠ none := by
    intro f hf hn
    rw [(C11_remove_shorter_than fs t1).2 ⟨f, hf, hn⟩] at h1; cases h1
  rw [(C11_remove_shorter_than fs t1).1 hall] at h1
  cases h1
  have hall' : ∀ f ∈ fs.filter (lastsAtLeast t1), f.timedelta ≠ none :=
    fun f hf => hall f (List.mem_filter.1 hf).1
  have key : ∀ t2, (fs.filter (lastsAtLeast t1)).filter (lastsAtLeast t2) =
      fs.filter (lastsAtLeast (max t1 t2)) := by
    intro t2
    rw [List.filter_filter]
    apply List.filter_congr
    intro f hf
    rcases htd : f.timedelta with _ | d
    · exact absurd htd (hall f hf)
    · rw [Bool.eq_iff_iff]; simp [lastsAtLeast, htd]; omega
  rw [(C11_remove_shorter_than _ t2).1 hall', (C11_remove_shorter_than _ (max t1 t2)).1 hall,
    (C11_remove_shorter_than _ t1).1 hall', key, key]
  simp

example : SortedDisjoint [mk' (some 0) (some 10), mk' (some 12) (some 15)] ∧
    (∀ f ∈ [mk' (some 0) (some 10), mk' (some 12) (some 15)], f.timedelta ≠ none) :=
  ⟨Chain.cons _ _ _ 0 10 12 ⟨rfl, rfl, rfl, rfl⟩ (by decide) rfl (by decide)
      (Chain.single _ 12 15 ⟨rfl, rfl, rfl, rfl⟩ (by decide)), by simp [TF.timedelta, mk', TF.start, TF.stop]⟩

end Nilmtk
