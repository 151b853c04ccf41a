import Verif.Lemmas.TimeFrame
import Mathlib.Data.List.Basic
/-! Helper lemmas about lists of TimeFrames. -/
namespace Nilmtk
open TF

/-- The list is a sorted sequence of non-overlapping half-open frames inside `[lo, hi]`. -/
inductive Within : Int → Int → List TF → Prop where
  | nil (lo hi : Int) : lo ≤ hi → Within lo hi []
  | cons (lo hi s e : Int) (f : TF) (fs : List TF) : HalfOpen f s e → lo ≤ s → s < e →
      Within e hi fs → Within lo hi (f :: fs)

theorem Within.le {lo hi : Int} {fs : List TF} (h : Within lo hi fs) : lo ≤ hi := by
  induction h with
  | nil _ _ h => exact h
  | cons => omega

theorem Within.weaken {lo hi : Int} {fs : List TF} (h : Within lo hi fs) {lo' hi' : Int}
    (h1 : lo' ≤ lo) (h2 : hi ≤ hi') : Within lo' hi' fs := by
  induction h generalizing lo' with
  | nil _ _ h => exact Within.nil _ _ (by omega)
  | cons lo hi s e f fs hf h3 h4 _ ih => exact Within.cons _ _ s e f fs hf (by omega) h4 (ih (by omega) h2)

theorem Within.append {lo m hi : Int} {fs gs : List TF} (h : Within lo m fs) (h' : Within m hi gs) :
    Within lo hi (fs ++ gs) := by
  induction h with
  | nil _ _ h => exact h'.weaken h (by omega)
  | cons lo hi s e f fs hf h3 h4 _ ih => exact Within.cons _ _ s e f _ hf h3 h4 (ih h')

theorem within_of_chain {fs : List TF} (h : SortedDisjoint fs) :
    ∃ lo hi, Within lo hi fs ∧ ∀ f ∈ fs.head?, f.start = some lo := by
  induction h with
  | nil => exact ⟨0, 0, Within.nil _ _ (by omega), by simp⟩
  | single f s e hf hse => exact ⟨s, e, Within.cons _ _ s e f [] hf (by omega) hse (Within.nil _ _ (by omega)), by simp [hf.2.2.1]⟩
  | cons f g fs s e s' hf hse hg hrel _ ih =>
    obtain ⟨lo, hi, h1, h2⟩ := ih
    have : lo = s' := by simpa [hg, eq_comm] using h2
    subst this
    exact ⟨s, hi, Within.cons _ _ s e f _ hf (by omega) hse (h1.weaken hrel (by omega)), by simp [hf.2.2.1]⟩

theorem chain_of_within {lo hi : Int} {fs : List TF} (h : Within lo hi fs) : SortedDisjoint fs := by
  induction h with
  | nil => exact Chain.nil
  | cons lo hi s e f fs hf h3 h4 hw ih =>
    cases hw with
    | nil => exact Chain.single f s e hf h4
    | cons _ _ s' e' g gs hg h5 h6 _ => exact Chain.cons f g gs s e s' hf h4 hg.2.2.1 h5 ih

theorem mem_halfOpen {f : TF} {s e : Int} (h : HalfOpen f s e) (t : Int) : Mem t f ↔ s ≤ t ∧ t < e := by
  obtain ⟨h1, h2, h3, h4⟩ := h
  simp [Mem, h1, h2, h3, h4]

theorem Within.mem {lo hi : Int} {fs : List TF} (h : Within lo hi fs) {t : Int} (ht : Covered fs t) :
    lo ≤ t ∧ t < hi := by
  induction h with
  | nil => obtain ⟨f, hf, _⟩ := ht; cases hf
  | cons lo hi s e f fs hf h3 h4 hw ih =>
    obtain ⟨g, hg, hm⟩ := ht
    have := hw.le
    rcases List.mem_cons.1 hg with rfl | hg
    · rw [mem_halfOpen hf] at hm; omega
    · have := ih ⟨g, hg, hm⟩; omega

theorem covered_cons (f : TF) (fs : List TF) (t : Int) : Covered (f :: fs) t ↔ Mem t f ∨ Covered fs t := by
  simp [Covered]
theorem covered_append (fs gs : List TF) (t : Int) :
    Covered (fs ++ gs) t ↔ Covered fs t ∨ Covered gs t := by
  simp [Covered, or_and_right, exists_or]

theorem timedelta_halfOpen {f : TF} {s e : Int} (h : HalfOpen f s e) : f.timedelta = some (e - s) := by
  simp [TF.timedelta, h.2.2.1, h.2.2.2]

/-- Total of the durations, ignoring frames without one. -/
def tdSum (fs : List TF) : Int := (fs.map (fun f => f.timedelta.getD 0)).sum

theorem uptimeFrom_eq (fs : List TF) (h : ∀ f ∈ fs, f.timedelta ≠ none) (acc : Int) :
    uptimeFrom acc fs = .ok (acc + tdSum fs) := by
  induction fs generalizing acc with
  | nil => simp [uptimeFrom, tdSum]
  | cons f fs ih =>
    have hf := h f List.mem_cons_self
    rcases htd : f.timedelta with _ | d
    · exact absurd htd hf
    · simp only [uptimeFrom, htd]
      rw [ih (fun g hg => h g (List.mem_cons_of_mem _ hg))]
      simp [tdSum, htd]; omega

theorem uptime_eq (fs : List TF) (h : ∀ f ∈ fs, f.timedelta ≠ none) : uptime fs = .ok (tdSum fs) := by
  unfold uptime; rw [uptimeFrom_eq fs h]; simp

theorem uptimeFrom_error (fs : List TF) (h : ∃ f ∈ fs, f.timedelta = none) (acc : Int) :
    uptimeFrom acc fs = .error .typeError := by
  induction fs generalizing acc with
  | nil => obtain ⟨f, hf, _⟩ := h; cases hf
  | cons f fs ih =>
    rcases htd : f.timedelta with _ | d
    · simp [uptimeFrom, htd]
    · obtain ⟨g, hg, hn⟩ := h
      rcases List.mem_cons.1 hg with rfl | hg
      · rw [htd] at hn; cases hn
      · simp only [uptimeFrom, htd]; exact ih ⟨g, hg, hn⟩ _

theorem Within.halfOpen {lo hi : Int} {fs : List TF} (h : Within lo hi fs) :
    ∀ f ∈ fs, ∃ s e, HalfOpen f s e ∧ s < e := by
  induction h with
  | nil => simp
  | cons lo hi s e f fs hf h3 h4 hw ih =>
    intro g hg
    rcases List.mem_cons.1 hg with rfl | hg
    · exact ⟨s, e, hf, h4⟩
    · exact ih g hg

theorem Within.timedelta {lo hi : Int} {fs : List TF} (h : Within lo hi fs) :
    ∀ f ∈ fs, f.timedelta ≠ none := by
  intro f hf
  obtain ⟨s, e, h1, _⟩ := h.halfOpen f hf
  rw [timedelta_halfOpen h1]; simp

theorem Within.tdSum_le {lo hi : Int} {fs : List TF} (h : Within lo hi fs) :
    0 ≤ tdSum fs ∧ tdSum fs ≤ hi - lo := by
  induction h with
  | nil => simp [tdSum]; omega
  | cons lo hi s e f fs hf h3 h4 hw ih =>
    simp only [tdSum, List.map_cons, List.sum_cons, timedelta_halfOpen hf, Option.getD_some] at *
    omega

/-- Intersection of two half-open frames. -/
theorem inter_halfOpen {a b : TF} {s e s' e' : Int} (ha : HalfOpen a s e) (hb : HalfOpen b s' e') :
    ((a.intersection b).empty = true ∧ min e e' ≤ max s s') ∨
    (HalfOpen (a.intersection b) (max s s') (min e e') ∧ max s s' < min e e') := by
  obtain ⟨a1, a2, a3, a4⟩ := ha
  obtain ⟨b1, b2, b3, b4⟩ := hb
  rcases hE : (a.intersection b).empty with _ | _
  · right
    have hb := inter_bounds_of_nonempty _ _ hE
    rw [a3, b3, a4, b4] at hb
    have hne : ¬ (a.intersection b).empty = true := by simp [hE]
    rw [inter_empty_iff, a3, b3, a4, b4] at hne
    refine ⟨⟨hE, ?_, hb.1, hb.2⟩, ?_⟩
    · rcases inter_cases a b with ⟨h', _⟩ | ⟨_, _, _, hi, _⟩
      · rw [hE] at h'; cases h'
      · rw [hi]; unfold interInclude; rw [a2, b2]; simp
    · apply Int.lt_of_not_ge
      intro hc
      exact hne (Or.inr (Or.inr ⟨_, _, rfl, rfl, hc⟩))
  · left
    rw [inter_empty_iff, a3, b3, a4, b4, a1, b1] at hE
    simp [conf, omax, omin] at hE
    exact ⟨rfl, by omega⟩

/-- The inner loop of `TimeFrameGroup.intersection`. -/
def maskRow (a : TF) (other : List TF) : List TF :=
  (other.map (fun b => a.intersection b)).filter (fun i => !i.empty)

theorem groupIntersection_cons (a : TF) (as bs : List TF) :
    groupIntersection (a :: as) bs = maskRow a bs ++ groupIntersection as bs := rfl

theorem maskRow_within {a : TF} {s e : Int} (ha : HalfOpen a s e) (hse : s ≤ e) {lo hi : Int}
    {bs : List TF} (h : Within lo hi bs) : Within (max s (min lo e)) e (maskRow a bs) := by
  induction h with
  | nil lo hi h => exact Within.nil _ _ (by omega)
  | cons lo hi s' e' f fs hf h3 h4 hw ih =>
    unfold maskRow at *
    rcases inter_halfOpen ha hf with ⟨h1, h2⟩ | ⟨h1, h2⟩
    · simp only [List.map_cons, List.filter_cons, h1, Bool.not_true, Bool.false_eq_true, if_false]
      exact ih.weaken (by omega) (by omega)
    · simp only [List.map_cons, List.filter_cons, h1.1, Bool.not_false, if_true]
      refine Within.cons _ _ _ _ _ _ h1 (by omega) h2 (ih.weaken (by omega) (by omega))

theorem groupIntersection_within {lo hi lo' hi' : Int} {as bs : List TF} (ha : Within lo hi as)
    (hb : Within lo' hi' bs) : Within lo hi (groupIntersection as bs) := by
  induction ha with
  | nil lo hi h => exact Within.nil _ _ h
  | cons lo hi s e f fs hf h3 h4 hw ih =>
    rw [groupIntersection_cons]
    exact (((maskRow_within hf (by omega) hb).weaken (by omega) (Int.le_refl e))).append ih

theorem tdSum_append (fs gs : List TF) : tdSum (fs ++ gs) = tdSum fs + tdSum gs := by
  simp [tdSum]

theorem tdSum_groupIntersection_le_left {lo hi lo' hi' : Int} {as bs : List TF} (ha : Within lo hi as)
    (hb : Within lo' hi' bs) : tdSum (groupIntersection as bs) ≤ tdSum as := by
  induction ha with
  | nil => simp [groupIntersection, tdSum]
  | cons lo hi s e f fs hf h3 h4 hw ih =>
    rw [groupIntersection_cons, tdSum_append]
    have h1 := ((maskRow_within hf (by omega) hb).weaken (lo' := s) (by omega) (Int.le_refl e)).tdSum_le
    have h2 : tdSum (f :: fs) = (e - s) + tdSum fs := by
      simp [tdSum, timedelta_halfOpen hf]
    omega

/-- Contribution of one pair of frames to the uptime of the intersection. -/
def pairTd (a b : TF) : Int := if (a.intersection b).empty then 0 else (a.intersection b).timedelta.getD 0

theorem pairTd_comm (a b : TF) : pairTd a b = pairTd b a := by
  unfold pairTd
  have he : (a.intersection b).empty = (b.intersection a).empty := by
    rw [Bool.eq_iff_iff, inter_empty_iff, inter_empty_iff, omax_comm, omin_comm]; tauto
  rcases h : (a.intersection b).empty with _ | _
  · rw [← he, h]
    obtain ⟨h1, h2⟩ := inter_bounds_of_nonempty a b h
    obtain ⟨h3, h4⟩ := inter_bounds_of_nonempty b a (he ▸ h)
    simp only [TF.timedelta, h1, h2, h3, h4, ← he, h, omax_comm, omin_comm]
  · rw [← he, h]; simp

theorem tdSum_maskRow (a : TF) (bs : List TF) : tdSum (maskRow a bs) = (bs.map (pairTd a)).sum := by
  induction bs with
  | nil => rfl
  | cons b bs ih =>
    unfold maskRow at *
    simp only [List.map_cons, List.filter_cons, List.sum_cons, ← ih]
    rcases h : (a.intersection b).empty with _ | _
    · simp [tdSum, pairTd, h]
    · simp [pairTd, h]

theorem tdSum_groupIntersection (as bs : List TF) :
    tdSum (groupIntersection as bs) = (as.map (fun a => (bs.map (pairTd a)).sum)).sum := by
  induction as with
  | nil => rfl
  | cons a as ih =>
    rw [groupIntersection_cons, tdSum_append, tdSum_maskRow, ih]; simp

theorem sum_map_add {α : Type} (l : List α) (f g : α → Int) :
    (l.map (fun x => f x + g x)).sum = (l.map f).sum + (l.map g).sum := by
  induction l with
  | nil => rfl
  | cons a l ih => simp only [List.map_cons, List.sum_cons, ih]; omega

theorem sum_swap {α β : Type} (as : List α) (bs : List β) (f : α → β → Int) :
    (as.map (fun a => (bs.map (f a)).sum)).sum = (bs.map (fun b => (as.map (fun a => f a b)).sum)).sum := by
  induction as with
  | nil => simp
  | cons a as ih =>
    simp only [List.map_cons, List.sum_cons, ih, sum_map_add]

theorem tdSum_groupIntersection_comm (as bs : List TF) :
    tdSum (groupIntersection as bs) = tdSum (groupIntersection bs as) := by
  rw [tdSum_groupIntersection, tdSum_groupIntersection, sum_swap]
  simp only [pairTd_comm]

end Nilmtk
