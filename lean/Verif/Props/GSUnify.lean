import Verif.Model.GoodSections
import Verif.Props.Dropout
import Verif.Props.TimeFrameGroup
/-!
C102: unifying the good sections of several meters.
-/
namespace Nilmtk
open TF

/-- `a.unify(b)` for one table after the other. -/
def gsUnifyAll : List (RRow (List TF)) → List (List (RRow (List TF))) → Except Err (List (RRow (List TF)))
  | a, [] => .ok a
  | a, b :: bs =>
    match gsUnify a b with
    | .error e => .error e
    | .ok c => gsUnifyAll c bs

/-- The sections of a table are half-open. -/
def HalfOpenRows (a : List (RRow (List TF))) : Prop := ∀ r ∈ a, ∀ s ∈ r.val, s.includeEnd = false

/-- The instant `t` is good in the period that starts at `p`. -/
def GoodIn (a : List (RRow (List TF))) (p t : Int) : Prop := ∃ r ∈ a, r.start = p ∧ Covered r.val t

theorem intersection_halfOpen (p q : TF) (hp : p.includeEnd = false) (hq : q.includeEnd = false) : (p.intersection q).includeEnd = false := by
  have hi : interInclude p q = false := by
    unfold interInclude
    rw [hp, hq]
    simp
  unfold intersection
  split
  · rfl
  · split
    · split <;> exact hi
    · exact hi

theorem gsUnify_same (a b : List (RRow (List TF))) (h : SamePeriods a b) (hnd : (a.map RRow.start).Nodup) :
    gsUnify a b = .ok (List.zipWith (fun r o => ⟨r.start, r.stop, groupIntersection r.val o.val⟩) a b) := by
  unfold gsUnify
  rw [unifyCheck_same a b h hnd]
  simp only
  rw [map_loc_same a b h hnd (fun r o => (⟨r.start, r.stop, groupIntersection r.val ((o.map RRow.val).getD [])⟩ : RRow (List TF)))]
  rfl

theorem gsZip_periods (a b : List (RRow (List TF))) (h : SamePeriods a b) :
    SamePeriods a (List.zipWith (fun r o => (⟨r.start, r.stop, groupIntersection r.val o.val⟩ : RRow (List TF))) a b) := by
  induction h with
  | nil => exact .nil
  | cons _ _ ih => exact .cons ⟨rfl, rfl⟩ ih

theorem gsZip_good (a b : List (RRow (List TF))) (h : SamePeriods a b) (hnd : (a.map RRow.start).Nodup) (ha : HalfOpenRows a)
    (hb : HalfOpenRows b) (p t : Int) :
    GoodIn (List.zipWith (fun r o => (⟨r.start, r.stop, groupIntersection r.val o.val⟩ : RRow (List TF))) a b) p t ↔
      GoodIn a p t ∧ GoodIn b p t := by
  induction h with
  | nil => simp [GoodIn]
  | @cons x y a b hxy hab ih =>
    rw [List.map_cons, List.nodup_cons] at hnd
    have hst := SamePeriods.starts hab
    have hc := C10_group_intersection_pointwise x.val y.val (ha x List.mem_cons_self) (hb y List.mem_cons_self) t
    have ih := ih hnd.2 (fun r hr => ha r (List.mem_cons_of_mem _ hr)) (fun r hr => hb r (List.mem_cons_of_mem _ hr))
    have key : ∀ (z : RRow (List TF)) (l : List (RRow (List TF))), GoodIn (z :: l) p t ↔ (z.start = p ∧ Covered z.val t) ∨ GoodIn l p t := by
      intro z l
      unfold GoodIn
      constructor
      · rintro ⟨r, hr, h⟩
        rcases List.mem_cons.1 hr with rfl | hr
        · exact Or.inl h
        · exact Or.inr ⟨r, hr, h⟩
      · rintro (h | ⟨r, hr, h⟩)
        · exact ⟨z, List.mem_cons_self, h⟩
        · exact ⟨r, List.mem_cons_of_mem _ hr, h⟩
    rw [List.zipWith_cons_cons, key, key, key, ih]
    simp only
    rw [hc]
    have hno : x.start = p → ¬ GoodIn a p t ∧ ¬ GoodIn b p t := by
      rintro rfl
      constructor
      · rintro ⟨r, hr, he, _⟩
        exact hnd.1 (he ▸ List.mem_map_of_mem hr)
      · rintro ⟨r, hr, he, _⟩
        exact hnd.1 (hst ▸ he ▸ List.mem_map_of_mem hr)
    by_cases hp : x.start = p
    · have hp' : y.start = p := by rw [← hxy.1]; exact hp
      have := hno hp
      simp only [hp, hp', true_and, this.1, this.2, false_and, or_false]
    · have hp' : y.start ≠ p := by rw [← hxy.1]; exact hp
      simp only [hp, hp', false_and, false_or]

/-- C102. Unifying the good sections of two meters over the same periods: the periods stay, and an instant is good in a period iff it is good
for both meters; no section is empty. -/
theorem C102_unify (a b : List (RRow (List TF))) (h : SamePeriods a b) (hnd : (a.map RRow.start).Nodup) (ha : HalfOpenRows a)
    (hb : HalfOpenRows b) :
    ∃ c, gsUnify a b = .ok c ∧ SamePeriods a c ∧ HalfOpenRows c ∧ (∀ r ∈ c, ∀ s ∈ r.val, s.empty = false) ∧
      ∀ p t, GoodIn c p t ↔ GoodIn a p t ∧ GoodIn b p t := by
  refine ⟨_, gsUnify_same a b h hnd, gsZip_periods a b h, ?_, ?_, gsZip_good a b h hnd ha hb⟩
  · intro r hr s hs
    obtain ⟨i, hi⟩ := List.mem_iff_getElem?.1 hr
    rw [List.getElem?_zipWith] at hi
    cases hx : a[i]? with
    | none => rw [hx] at hi; cases hi
    | some x =>
      cases hy : b[i]? with
      | none => rw [hx, hy] at hi; cases hi
      | some y =>
        rw [hx, hy] at hi
        simp only [Option.some.injEq] at hi
        rw [← hi] at hs
        simp only [groupIntersection, List.mem_flatMap, List.mem_filter, List.mem_map] at hs
        obtain ⟨p, h1, ⟨q, h2, rfl⟩, _⟩ := hs
        have e1 := ha x (List.mem_of_getElem? hx) p h1
        have e2 := hb y (List.mem_of_getElem? hy) q h2
        exact intersection_halfOpen p q e1 e2
  · intro r hr s hs
    obtain ⟨i, hi⟩ := List.mem_iff_getElem?.1 hr
    rw [List.getElem?_zipWith] at hi
    cases hx : a[i]? with
    | none => rw [hx] at hi; cases hi
    | some x =>
      cases hy : b[i]? with
      | none => rw [hx, hy] at hi; cases hi
      | some y =>
        rw [hx, hy] at hi
        simp only [Option.some.injEq] at hi
        rw [← hi] at hs
        exact C10_group_intersection_nonempty x.val y.val s hs

/-- C102. The order of the two meters does not matter. -/
theorem C102_order (a b : List (RRow (List TF))) (h : SamePeriods a b) (hnd : (a.map RRow.start).Nodup) (ha : HalfOpenRows a)
    (hb : HalfOpenRows b) :
    ∃ c d, gsUnify a b = .ok c ∧ gsUnify b a = .ok d ∧ ∀ p t, GoodIn c p t ↔ GoodIn d p t := by
  have h' : SamePeriods b a := by
    unfold SamePeriods at h ⊢
    rw [List.forall₂_iff_get] at h ⊢
    exact ⟨h.1.symm, fun i h1 h2 => ⟨(h.2 i h2 h1).1.symm, (h.2 i h2 h1).2.symm⟩⟩
  obtain ⟨c, h1, _, _, _, h2⟩ := C102_unify a b h hnd ha hb
  obtain ⟨d, h3, _, _, _, h4⟩ := C102_unify b a h' (by rw [h'.starts]; exact hnd) hb ha
  refine ⟨c, d, h1, h3, fun p t => ?_⟩
  rw [h2, h4, and_comm]

/-- C102. Any number of meters over the same periods: an instant is good in a period iff it is good for every meter. -/
theorem C102_many (others : List (List (RRow (List TF)))) : ∀ (first : List (RRow (List TF))), (first.map RRow.start).Nodup →
    (∀ b ∈ others, SamePeriods first b) → (∀ b ∈ first :: others, HalfOpenRows b) →
    ∃ c, gsUnifyAll first others = .ok c ∧ SamePeriods first c ∧ ∀ p t, GoodIn c p t ↔ ∀ b ∈ first :: others, GoodIn b p t := by
  induction others with
  | nil =>
    intro first _ _ _
    refine ⟨first, rfl, ?_, ?_⟩
    · unfold SamePeriods
      exact List.forall₂_same.2 (fun _ _ => ⟨rfl, rfl⟩)
    · intro p t
      simp
  | cons b others ih =>
    intro first hnd hs ho
    obtain ⟨c, h1, h2, h3, _, h4⟩ := C102_unify first b (hs b List.mem_cons_self) hnd (ho first List.mem_cons_self)
      (ho b (List.mem_cons_of_mem _ List.mem_cons_self))
    obtain ⟨d, k1, k2, k3⟩ := ih c (by rw [← h2.starts]; exact hnd)
      (fun x hx => h2.trans_left (hs x (List.mem_cons_of_mem _ hx)))
      (by
        intro x hx
        rcases List.mem_cons.1 hx with rfl | hx
        · exact h3
        · exact ho x (List.mem_cons_of_mem _ (List.mem_cons_of_mem _ hx)))
    refine ⟨d, by unfold gsUnifyAll; rw [h1]; exact k1, ?_, ?_⟩
    · unfold SamePeriods at h2 k2 ⊢
      rw [List.forall₂_iff_get] at h2 k2 ⊢
      refine ⟨h2.1.trans k2.1, fun i i1 i2 => ?_⟩
      have e1 := h2.2 i i1 (by rw [← h2.1]; exact i1)
      have e2 := k2.2 i (by rw [← h2.1]; exact i1) i2
      exact ⟨e1.1.trans e2.1, e1.2.trans e2.2⟩
    · intro p t
      rw [k3]
      simp only [List.forall_mem_cons, h4]
      exact and_assoc

/-- C102. A period that the other meter does not have is a `KeyError`, a period with another end a `RuntimeError`: the first such row decides. -/
theorem C102_refused (pre post b : List (RRow (List TF))) (r : RRow (List TF)) (hnd : (b.map RRow.start).Nodup)
    (hpre : ∀ x ∈ pre, ∃ o ∈ b, o.start = x.start ∧ o.stop = x.stop) :
    ((∀ o ∈ b, o.start ≠ r.start) → gsUnify (pre ++ r :: post) b = .error .keyError) ∧
    (∀ o ∈ b, o.start = r.start → o.stop ≠ r.stop → gsUnify (pre ++ r :: post) b = .error .runtimeError) := by
  have hfind : ∀ o ∈ b, Results.loc b o.start = some o := by
    intro o ho
    unfold Results.loc
    clear hpre
    induction b with
    | nil => simp at ho
    | cons q b ih =>
      rw [List.map_cons, List.nodup_cons] at hnd
      rcases List.mem_cons.1 ho with rfl | ho
      · simp
      · have hne : q.start ≠ o.start := by
          intro hc
          exact hnd.1 (by rw [hc]; exact List.mem_map_of_mem ho)
        rw [List.find?_cons_of_neg (by simpa using hne)]
        exact ih hnd.2 ho
  have hskip : Results.unifyCheck (pre ++ r :: post) b = Results.unifyCheck (r :: post) b := by
    clear hnd
    induction pre with
    | nil => rfl
    | cons x pre ih =>
      obtain ⟨o, ho, h1, h2⟩ := hpre x List.mem_cons_self
      rw [List.cons_append, Results.unifyCheck, ← h1, hfind o ho]
      simp only [h2, ne_eq, not_true_eq_false, if_false]
      exact ih (fun y hy => hpre y (List.mem_cons_of_mem _ hy))
  constructor
  · intro hno
    have : Results.loc b r.start = none := by
      unfold Results.loc
      rw [List.find?_eq_none]
      intro o ho
      simpa using hno o ho
    unfold gsUnify
    rw [hskip, Results.unifyCheck, this]
  · intro o ho h1 h2
    unfold gsUnify
    rw [hskip, Results.unifyCheck, ← h1, hfind o ho]
    simp only [h2, ne_eq, not_false_eq_true, if_true]

/-- Two meters over two periods: the first period has an open end. -/
example :
    let a : List (RRow (List TF)) := [⟨0, 10, [mk' (some 1) (some 4), mk' (some 6) none]⟩, ⟨10, 20, [mk' none (some 15)]⟩]
    let b : List (RRow (List TF)) := [⟨0, 10, [mk' (some 2) none]⟩, ⟨10, 20, [mk' none (some 12), mk' (some 14) (some 18)]⟩]
    SamePeriods a b ∧ (a.map RRow.start).Nodup ∧ HalfOpenRows a ∧ HalfOpenRows b ∧
      (gsUnify a b).map (fun c => c.map (fun r => r.val.map (fun s => (s.start, s.stop)))) =
        .ok [[(some 2, some 4), (some 6, none)], [(none, some 12), (some 14, some 15)]] := by
  refine ⟨.cons ⟨rfl, rfl⟩ (.cons ⟨rfl, rfl⟩ .nil), by decide, ?_, ?_, by decide +kernel⟩
  · unfold HalfOpenRows
    decide
  · unfold HalfOpenRows
    decide

example : gsUnify [⟨0, 10, []⟩, ⟨10, 20, []⟩] [⟨0, 10, []⟩] = .error .keyError ∧
    gsUnify [⟨0, 10, []⟩, ⟨10, 20, []⟩] [⟨0, 10, []⟩, ⟨10, 30, []⟩] = .error .runtimeError := by decide +kernel

end Nilmtk
