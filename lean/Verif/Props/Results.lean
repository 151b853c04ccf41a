import Verif.Model.Results
import Verif.Props.TimeFrame
/-!
C28, C29, C32: the table of per-period results.
-/
namespace Nilmtk
open TF

/-- What a `Results` table should look like: every row is a proper period, rows are sorted and
do not overlap. -/
def RowsOK {α : Type} (rows : List (RRow α)) : Prop :=
  (∀ r ∈ rows, r.start < r.stop) ∧ rows.Pairwise (fun a b => a.stop ≤ b.start)

/-- Two periods share no instant. -/
def Apart {α : Type} (a b : RRow α) : Prop := a.stop ≤ b.start ∨ b.stop ≤ a.start

/-! ### Lemmas -/

theorem overlap_ok_iff {a b s e : Int} (tf : TF) (hs : tf.start = some s) (he : tf.stop = some e)
    (hne : tf.empty = false) (hab : a < b) (hse : s < e) :
    ((mk' (some a) (some b)).checkForOverlap tf = .ok () ↔ b ≤ s ∨ e ≤ a) ∧
    ((mk' (some a) (some b)).checkForOverlap tf = .ok () ∨
      (mk' (some a) (some b)).checkForOverlap tf = .error .valueError) := by
  have key : ((mk' (some a) (some b)).intersection tf).empty = true ↔ b ≤ s ∨ e ≤ a := by
    rw [inter_empty_iff, hs, he]
    have e1 : (mk' (some a) (some b)).start = some a := rfl
    have e2 : (mk' (some a) (some b)).stop = some b := rfl
    have e3 : (mk' (some a) (some b)).empty = false := rfl
    rw [e1, e2, e3, hne]
    simp only [Bool.false_eq_true, false_or, conf, omax, omin, Option.some.injEq]
    constructor
    · rintro ⟨x, y, rfl, rfl, h⟩; omega
    · intro h; exact ⟨_, _, rfl, rfl, by omega⟩
  unfold checkForOverlap
  by_cases h : ((mk' (some a) (some b)).intersection tf).empty = true
  · rw [if_pos h]; exact ⟨⟨fun _ => key.1 h, fun _ => rfl⟩, Or.inl rfl⟩
  · rw [if_neg h]
    refine ⟨⟨fun h' => (by cases h'), fun h' => absurd (key.2 h') h⟩, Or.inr rfl⟩

theorem checkRows_spec {α : Type} (tf : TF) (s e : Int) (hs : tf.start = some s) (he : tf.stop = some e)
    (hne : tf.empty = false) (hse : s < e) (rows : List (RRow α)) (hv : ∀ r ∈ rows, r.start < r.stop) :
    (checkRows tf rows = .ok () ∧ ∀ r ∈ rows, r.stop ≤ s ∨ e ≤ r.start) ∨
    (checkRows tf rows = .error .valueError ∧ ∃ r ∈ rows, ¬ (r.stop ≤ s ∨ e ≤ r.start)) := by
  induction rows with
  | nil => left; exact ⟨rfl, by simp⟩
  | cons r rows ih =>
    have hr := hv r List.mem_cons_self
    have hc : ctor (some r.start) (some r.stop) = .ok (mk' (some r.start) (some r.stop)) :=
      ctor_ok (by intro a b ha hb; cases ha; cases hb; exact hr)
    obtain ⟨k1, k2⟩ := overlap_ok_iff tf hs he hne hr hse
    rw [checkRows, hc]
    simp only
    rcases k2 with k | k
    · rw [k]
      simp only
      rcases ih (fun x hx => hv x (List.mem_cons_of_mem _ hx)) with ⟨h1, h2⟩ | ⟨h1, x, hx, h2⟩
      · left
        refine ⟨h1, ?_⟩
        intro x hx
        rcases List.mem_cons.1 hx with rfl | hx
        · exact k1.1 k
        · exact h2 x hx
      · right; exact ⟨h1, x, List.mem_cons_of_mem _ hx, h2⟩
    · right
      rw [k]
      refine ⟨rfl, r, List.mem_cons_self, ?_⟩
      intro h
      rw [k1.2 h] at k; cases k

theorem sortRows_perm {α : Type} (rows : List (RRow α)) : (sortRows rows).Perm rows :=
  List.perm_insertionSort _ _

theorem sortRows_sorted {α : Type} (rows : List (RRow α)) :
    (sortRows rows).Pairwise (fun a b => a.start ≤ b.start) := by
  have : Std.Total (fun a b : RRow α => a.start ≤ b.start) := ⟨fun a b => by omega⟩
  have : IsTrans (RRow α) (fun a b : RRow α => a.start ≤ b.start) := ⟨fun a b c => by omega⟩
  exact List.pairwise_insertionSort _ rows

theorem rowsOK_sort {α : Type} (rows : List (RRow α)) (h1 : ∀ r ∈ rows, r.start < r.stop)
    (h2 : rows.Pairwise Apart) : RowsOK (sortRows rows) := by
  have hp := sortRows_perm rows
  refine ⟨fun r hr => h1 r (hp.mem_iff.1 hr), ?_⟩
  have h3 : (sortRows rows).Pairwise Apart :=
    (hp.pairwise_iff (by intro a b h; exact Or.symm h)).2 h2
  have h4 := sortRows_sorted rows
  have h5 : ∀ r ∈ sortRows rows, r.start < r.stop := fun r hr => h1 r (hp.mem_iff.1 hr)
  generalize sortRows rows = l at h3 h4 h5
  clear hp h1 h2
  induction l with
  | nil => exact .nil
  | cons a l ih =>
    obtain ⟨a3, b3⟩ := List.pairwise_cons.1 h3
    obtain ⟨a4, b4⟩ := List.pairwise_cons.1 h4
    refine List.pairwise_cons.2 ⟨?_, ih b3 b4 (fun r hr => h5 r (List.mem_cons_of_mem _ hr))⟩
    intro b hb
    have h6 := h5 b (List.mem_cons_of_mem _ hb)
    have h7 := a4 b hb
    rcases a3 b hb with h | h
    · exact h
    · omega

theorem rowsOK_apart {α : Type} {rows : List (RRow α)} (h : RowsOK rows) : rows.Pairwise Apart :=
  h.2.imp (fun h => Or.inl h)

theorem rowsOK_sorted_id {α : Type} {rows : List (RRow α)} (h : RowsOK rows) : sortRows rows = rows := by
  apply List.Pairwise.insertionSort_eq
  obtain ⟨h1, h2⟩ := h
  induction rows with
  | nil => exact .nil
  | cons a l ih =>
    obtain ⟨a2, b2⟩ := List.pairwise_cons.1 h2
    refine List.pairwise_cons.2 ⟨?_, ih (fun r hr => h1 r (List.mem_cons_of_mem _ hr)) b2⟩
    intro b hb
    have := a2 b hb
    have := h1 a List.mem_cons_self
    omega

/-! ### C28 -/

/-- C28. Appending a period to a proper table succeeds exactly when the period overlaps no stored
row (touching is fine); the new table is then proper and holds the old rows plus the new one. -/
theorem C28_append {α : Type} (rows : List (RRow α)) (hok : RowsOK rows) (tf : TF) (s e : Int)
    (hs : tf.start = some s) (he : tf.stop = some e) (hne : tf.empty = false) (hse : s < e) (v : α) :
    ((∀ r ∈ rows, r.stop ≤ s ∨ e ≤ r.start) →
      ∃ rows', Results.append rows tf v = .ok rows' ∧ RowsOK rows' ∧ rows'.Perm (⟨s, e, v⟩ :: rows)) ∧
    (¬ (∀ r ∈ rows, r.stop ≤ s ∨ e ≤ r.start) → Results.append rows tf v = .error .valueError) := by
  have hc := checkRows_spec tf s e hs he hne hse rows hok.1
  constructor
  · intro hd
    rcases hc with ⟨h1, _⟩ | ⟨_, r, hr, hn⟩
    · have hany : rows.any (fun r => decide (r.start = s)) = false := by
        rw [List.any_eq_false]
        intro r hr
        have := hd r hr
        have := hok.1 r hr
        simp only [decide_eq_true_eq]; omega
      refine ⟨sortRows (rows ++ [⟨s, e, v⟩]), ?_, ?_, ?_⟩
      · rw [Results.append, h1]; simp only [hs, he, hany]; rfl
      · apply rowsOK_sort
        · intro r hr
          rcases List.mem_append.1 hr with hr | hr
          · exact hok.1 r hr
          · rw [List.mem_singleton] at hr; subst hr; exact hse
        · rw [List.pairwise_append]
          refine ⟨rowsOK_apart hok, by simp, ?_⟩
          intro a ha b hb
          rw [List.mem_singleton] at hb; subst hb
          exact hd a ha
      · exact (sortRows_perm _).trans (List.perm_append_singleton _ _)
    · exact absurd (hd r hr) hn
  · intro hd
    rcases hc with ⟨_, h2⟩ | ⟨h1, _⟩
    · exact absurd h2 hd
    · rw [Results.append, h1]

/-- C28. Whatever is appended in whatever order (exceptions caught by the caller), the table stays
proper. -/
theorem C28_invariant {α : Type} (ops : List (TF × α))
    (hops : ∀ o ∈ ops, ∃ s e, o.1.start = some s ∧ o.1.stop = some e ∧ s < e ∧ o.1.empty = false) :
    RowsOK (ops.foldl (fun rows o => (Results.appendState rows o.1 o.2).1) []) := by
  suffices h : ∀ rows : List (RRow α), RowsOK rows →
      RowsOK (ops.foldl (fun rows o => (Results.appendState rows o.1 o.2).1) rows) from
    h [] ⟨by simp, by simp⟩
  induction ops with
  | nil => intro rows h; exact h
  | cons o ops ih =>
    intro rows h
    obtain ⟨s, e, h1, h2, h3, h4⟩ := hops o List.mem_cons_self
    rw [List.foldl_cons]
    apply ih (fun x hx => hops x (List.mem_cons_of_mem _ hx))
    obtain ⟨k1, k2⟩ := C28_append rows h o.1 s e h1 h2 h4 h3 o.2
    by_cases hd : ∀ r ∈ rows, r.stop ≤ s ∨ e ≤ r.start
    · obtain ⟨rows', g1, g2, _⟩ := k1 hd
      simp only [Results.appendState, g1]; exact g2
    · simp only [Results.appendState, k2 hd]; exact h

/-- C28. The final table of any sequence of appends holds exactly the accepted periods, and a call
that raises leaves the table as it was. -/
theorem C28_failed_append_changes_nothing {α : Type} (rows : List (RRow α)) (tf : TF) (v : α) (x : Err)
    (h : (Results.appendState rows tf v).2 = some x) : (Results.appendState rows tf v).1 = rows := by
  unfold Results.appendState at h ⊢
  cases hr : Results.append rows tf v with
  | error y => rfl
  | ok r => rw [hr] at h; cases h

/-- C28. The order in which compatible periods are appended does not matter. -/
theorem C28_order_irrelevant {α : Type} (rows : List (RRow α)) (hok : RowsOK rows) (f g : TF) (v w : α)
    (s e s' e' : Int) (h1 : f.start = some s) (h2 : f.stop = some e) (h3 : s < e) (h4 : f.empty = false)
    (h1' : g.start = some s') (h2' : g.stop = some e') (h3' : s' < e') (h4' : g.empty = false)
    (a : List (RRow α)) (b : List (RRow α)) (ha : Results.append rows f v = .ok a) (hb : Results.append a g w = .ok b) :
    ∃ a', Results.append rows g w = .ok a' ∧ Results.append a' f v = .ok b := by
  have dec : ∀ (rows : List (RRow α)) (hok : RowsOK rows) (f : TF) (s e : Int) (v : α) (h1 : f.start = some s)
      (h2 : f.stop = some e) (h3 : s < e) (h4 : f.empty = false) (a : List (RRow α)),
      Results.append rows f v = .ok a → (∀ r ∈ rows, r.stop ≤ s ∨ e ≤ r.start) ∧ RowsOK a ∧ a.Perm (⟨s, e, v⟩ :: rows) := by
    intro rows hok f s e v h1 h2 h3 h4 a ha
    obtain ⟨k1, k2⟩ := C28_append rows hok f s e h1 h2 h4 h3 v
    by_cases hd : ∀ r ∈ rows, r.stop ≤ s ∨ e ≤ r.start
    · obtain ⟨rows', g1, g2, g3⟩ := k1 hd
      rw [g1] at ha; cases ha; exact ⟨hd, g2, g3⟩
    · rw [k2 hd] at ha; cases ha
  obtain ⟨d1, ok1, p1⟩ := dec rows hok f s e v h1 h2 h3 h4 a ha
  obtain ⟨d2, ok2, p2⟩ := dec a ok1 g s' e' w h1' h2' h3' h4' b hb
  have d3 : ∀ r ∈ rows, r.stop ≤ s' ∨ e' ≤ r.start := fun r hr =>
    d2 r (p1.mem_iff.2 (List.mem_cons_of_mem _ hr))
  have d4 := d2 ⟨s, e, v⟩ (p1.mem_iff.2 List.mem_cons_self)
  obtain ⟨a', g1, g2, g3⟩ := (C28_append rows hok g s' e' h1' h2' h4' h3' w).1 d3
  have d5 : ∀ r ∈ a', r.stop ≤ s ∨ e ≤ r.start := by
    intro r hr
    rcases List.mem_cons.1 (g3.mem_iff.1 hr) with rfl | hr
    · exact Or.symm d4
    · exact d1 r hr
  obtain ⟨b', k1, k2, k3⟩ := (C28_append a' g2 f s e h1 h2 h4 h3 v).1 d5
  refine ⟨a', g1, ?_⟩
  rw [k1]
  have hperm : b'.Perm b := by
    refine k3.trans (((List.Perm.cons _ g3).trans (List.Perm.swap _ _ _)).trans ?_)
    exact ((p2.trans (List.Perm.cons _ p1))).symm
  have : b' = b := by
    apply List.Perm.eq_of_pairwise (le := fun x y : RRow α => x.stop ≤ y.start) _ k2.2 ok2.2 hperm
    intro x y hx hy hxy hyx
    have := k2.1 x hx
    have := k2.1 y (hperm.mem_iff.2 hy)
    omega
  rw [this]

/-- Non-vacuity of C28. -/
example : RowsOK [(⟨0, 10, "a"⟩ : RRow String), ⟨20, 30, "b"⟩] ∧
    Results.append [(⟨0, 10, "a"⟩ : RRow String), ⟨20, 30, "b"⟩] (mk' (some 10) (some 20)) "c" =
      .ok [⟨0, 10, "a"⟩, ⟨10, 20, "c"⟩, ⟨20, 30, "b"⟩] ∧
    Results.append [(⟨0, 10, "a"⟩ : RRow String), ⟨20, 30, "b"⟩] (mk' (some 9) (some 20)) "c" =
      .error .valueError := by
  refine ⟨by simp [RowsOK], ?_, rfl⟩
  have : sortRows [(⟨0, 10, "a"⟩ : RRow String), ⟨20, 30, "b"⟩, ⟨10, 20, "c"⟩] =
      [⟨0, 10, "a"⟩, ⟨10, 20, "c"⟩, ⟨20, 30, "b"⟩] := by decide +kernel
  rw [← this]; rfl

/-! ### C29 -/

theorem checkPairs_spec {α : Type} (r : RRow α) (hr : r.start < r.stop) (rows : List (RRow α))
    (hv : ∀ q ∈ rows, q.start < q.stop) :
    (Results.checkForOverlap.checkPairs r rows = .ok () ∧ ∀ q ∈ rows, Apart r q) ∨
    (Results.checkForOverlap.checkPairs r rows = .error .valueError ∧ ¬ ∀ q ∈ rows, Apart r q) := by
  induction rows with
  | nil => left; exact ⟨rfl, by simp⟩
  | cons q qs ih =>
    have hq := hv q List.mem_cons_self
    have hc1 : ctor (some r.start) (some r.stop) = .ok (mk' (some r.start) (some r.stop)) :=
      ctor_ok (by intro a b ha hb; cases ha; cases hb; exact hr)
    have hc2 : ctor (some q.start) (some q.stop) = .ok (mk' (some q.start) (some q.stop)) :=
      ctor_ok (by intro a b ha hb; cases ha; cases hb; exact hq)
    obtain ⟨k1, k2⟩ := overlap_ok_iff (mk' (some q.start) (some q.stop)) rfl rfl rfl hr hq
    rw [Results.checkForOverlap.checkPairs, hc1, hc2]
    simp only
    rcases k2 with k | k
    · rw [k]
      simp only
      have := k1.1 k
      rcases ih (fun x hx => hv x (List.mem_cons_of_mem _ hx)) with ⟨h1, h2⟩ | ⟨h1, h2⟩
      · left
        refine ⟨h1, ?_⟩
        intro x hx
        rcases List.mem_cons.1 hx with rfl | hx
        · exact this
        · exact h2 x hx
      · right; exact ⟨h1, fun h => h2 (fun x hx => h x (List.mem_cons_of_mem _ hx))⟩
    · right
      rw [k]
      refine ⟨rfl, fun h => ?_⟩
      rw [k1.2 (h q List.mem_cons_self)] at k; cases k

theorem resultsCheck_spec {α : Type} (rows : List (RRow α)) (hv : ∀ q ∈ rows, q.start < q.stop) :
    (Results.checkForOverlap rows = .ok () ∧ rows.Pairwise Apart) ∨
    (Results.checkForOverlap rows = .error .valueError ∧ ¬ rows.Pairwise Apart) := by
  induction rows with
  | nil => left; exact ⟨rfl, .nil⟩
  | cons r rows ih =>
    have hr := hv r List.mem_cons_self
    have hc1 : ctor (some r.start) (some r.stop) = .ok (mk' (some r.start) (some r.stop)) :=
      ctor_ok (by intro a b ha hb; cases ha; cases hb; exact hr)
    cases rows with
    | nil => left; refine ⟨?_, by simp⟩; rw [Results.checkForOverlap, hc1]
    | cons q qs =>
      have hv' : ∀ x ∈ q :: qs, x.start < x.stop := fun x hx => hv x (List.mem_cons_of_mem _ hx)
      rw [List.pairwise_cons]
      rcases checkPairs_spec r hr (q :: qs) hv' with ⟨h1, h2⟩ | ⟨h1, h2⟩
      · rcases ih hv' with ⟨h3, h4⟩ | ⟨h3, h4⟩
        · left; refine ⟨?_, h2, h4⟩
          rw [Results.checkForOverlap, h1]; simpa using h3
          simp
        · right; refine ⟨?_, fun h => h4 h.2⟩
          rw [Results.checkForOverlap, h1]; simpa using h3
          simp
      · right
        refine ⟨?_, fun h => h2 h.1⟩
        rw [Results.checkForOverlap, h1]
        simp

/-- C29. Updating a proper table with another one raises (`ValueError`) exactly when some row of one
overlaps some row of the other; when it does not raise, the table is proper and holds the rows of
both. -/
theorem C29_update {α : Type} (self other : List (RRow α)) (h1 : RowsOK self) (h2 : RowsOK other) :
    ((∀ a ∈ self, ∀ b ∈ other, Apart a b) →
      (Results.update self other).2 = none ∧ RowsOK (Results.update self other).1 ∧
      (Results.update self other).1.Perm (self ++ other)) ∧
    (¬ (∀ a ∈ self, ∀ b ∈ other, Apart a b) → (Results.update self other).2 = some .valueError) := by
  have hv : ∀ r ∈ self ++ other, r.start < r.stop := by
    intro r hr
    rcases List.mem_append.1 hr with hr | hr
    · exact h1.1 r hr
    · exact h2.1 r hr
  have hsym : ∀ {x y : RRow α}, Apart x y → Apart y x := fun h => Or.symm h
  have hpw : (self ++ other).Pairwise Apart ↔ ∀ a ∈ self, ∀ b ∈ other, Apart a b := by
    rw [List.pairwise_append]
    exact ⟨fun h => h.2.2, fun h => ⟨rowsOK_apart h1, rowsOK_apart h2, h⟩⟩
  have hperm := sortRows_perm (self ++ other)
  have hpw2 : (sortRows (self ++ other)).Pairwise Apart ↔ ∀ a ∈ self, ∀ b ∈ other, Apart a b :=
    (hperm.pairwise_iff hsym).trans hpw
  have hc := resultsCheck_spec (sortRows (self ++ other)) (fun q hq => hv q (hperm.mem_iff.1 hq))
  rw [hpw2] at hc
  cases other with
  | nil =>
    constructor
    · intro _; simp [Results.update, h1]
    · intro h; exact absurd (by simp) h
  | cons o os =>
    simp only [Results.update, List.isEmpty_cons, Bool.false_eq_true, if_false]
    constructor
    · intro h
      rcases hc with ⟨c1, _⟩ | ⟨_, c2⟩
      · rw [c1]; exact ⟨rfl, rowsOK_sort _ hv (hpw.2 h), hperm⟩
      · exact absurd h c2
    · intro h
      rcases hc with ⟨_, c2⟩ | ⟨c1, _⟩
      · exact absurd c2 h
      · rw [c1]

/-- C29: updating with an empty table is a no-op. -/
theorem C29_update_empty {α : Type} (self : List (RRow α)) : Results.update self [] = (self, none) := rfl

/-- C29: successful updates commute. -/
theorem C29_update_comm {α : Type} (a b : List (RRow α)) (h1 : RowsOK a) (h2 : RowsOK b)
    (h : (Results.update a b).2 = none) :
    (Results.update b a).2 = none ∧ (Results.update b a).1 = (Results.update a b).1 := by
  have hd : ∀ x ∈ a, ∀ y ∈ b, Apart x y := by
    by_contra hn
    rw [(C29_update a b h1 h2).2 hn] at h; cases h
  obtain ⟨_, k1, k2⟩ := (C29_update a b h1 h2).1 hd
  obtain ⟨g0, g1, g2⟩ := (C29_update b a h2 h1).1 (fun x hx y hy => Or.symm (hd y hy x hx))
  refine ⟨g0, ?_⟩
  have hperm := (g2.trans List.perm_append_comm).trans k2.symm
  apply List.Perm.eq_of_pairwise (le := fun x y : RRow α => x.stop ≤ y.start) _ g1.2 k1.2 hperm
  intro x y hx hy hxy hyx
  have := g1.1 x hx
  have := g1.1 y (hperm.mem_iff.2 hy)
  omega

/-- C29, negation of "a failing update changes nothing": after the `ValueError` the table holds
overlapping rows. -/
theorem C29_failed_update_counterexample :
    Results.update [(⟨0, 10, 1⟩ : RRow Nat)] [⟨5, 15, 2⟩] = ([⟨0, 10, 1⟩, ⟨5, 15, 2⟩], some .valueError) := by
  decide +kernel

/-- Non-vacuity of C29. -/
example : RowsOK [(⟨0, 10, 1⟩ : RRow Nat), ⟨20, 30, 2⟩] ∧ RowsOK [(⟨10, 20, 3⟩ : RRow Nat)] ∧
    Results.update [(⟨0, 10, 1⟩ : RRow Nat), ⟨20, 30, 2⟩] [⟨10, 20, 3⟩] =
      ([⟨0, 10, 1⟩, ⟨10, 20, 3⟩, ⟨20, 30, 2⟩], none) :=
  ⟨by simp [RowsOK], by simp [RowsOK], by decide +kernel⟩

/-! ### C32 -/

/-- C32. A row is imported exactly when it is cached and its start and end are those of a requested
section. -/
theorem C32_import_rows {α : Type} (cached : List (RRow α)) (sections : List TF) (r : RRow α) :
    r ∈ Results.importFromCache cached sections ↔
      r ∈ cached ∧ ∃ s ∈ sections, s.start = some r.start ∧ s.stop = some r.stop := by
  rw [Results.importFromCache, (sortRows_perm _).mem_iff, List.mem_flatten]
  constructor
  · rintro ⟨l, hl, hr⟩
    obtain ⟨s, hs, rfl⟩ := List.mem_map.1 hl
    rw [List.mem_filter] at hr
    simp only [Bool.and_eq_true, decide_eq_true_eq] at hr
    exact ⟨hr.1, s, hs, hr.2.1.symm, hr.2.2.symm⟩
  · rintro ⟨hr, s, hs, h1, h2⟩
    refine ⟨_, List.mem_map_of_mem hs, ?_⟩
    rw [List.mem_filter]
    simp [hr, h1, h2]

/-- C32. Importing the periods of a proper table from its own export reproduces the table. -/
theorem C32_round_trip {α : Type} (rows : List (RRow α)) (hok : RowsOK rows) (fs : List TF)
    (hfs : Results.timeframes rows = .ok fs) : Results.importFromCache rows fs = rows := by
  have h1 : fs = rows.map (fun r => mk' (some r.start) (some r.stop)) := by
    clear hok
    induction rows generalizing fs with
    | nil => cases hfs; rfl
    | cons r rows ih =>
      rw [Results.timeframes] at hfs
      cases hc : ctor (some r.start) (some r.stop) with
      | error e => rw [hc] at hfs; cases hfs
      | ok f =>
        cases ht : Results.timeframes rows with
        | error e => rw [hc, ht] at hfs; cases hfs
        | ok gs =>
          rw [hc, ht] at hfs
          cases hfs
          rw [(ctor_eq_ok hc).1, ih gs ht]; rfl
  have h2 : ∀ sub : List (RRow α), (∀ r ∈ sub, r ∈ rows) →
      ((sub.map (fun r => mk' (some r.start) (some r.stop))).map (fun s => rows.filter (fun r =>
        decide (some r.start = s.start) && decide (some r.stop = s.stop)))).flatten = sub := by
    intro sub
    induction sub with
    | nil => intro _; rfl
    | cons r sub ih =>
      intro hsub
      rw [List.map_cons, List.map_cons, List.flatten_cons, ih (fun x hx => hsub x (List.mem_cons_of_mem _ hx))]
      have hr := hsub r List.mem_cons_self
      have : rows.filter (fun q => decide (some q.start = (mk' (some r.start) (some r.stop)).start) &&
          decide (some q.stop = (mk' (some r.start) (some r.stop)).stop)) = [r] := by
        obtain ⟨pre, post, rfl⟩ := List.append_of_mem hr
        obtain ⟨v, p⟩ := hok
        rw [List.pairwise_append, List.pairwise_cons] at p
        obtain ⟨_, ⟨p2, _⟩, p3⟩ := p
        rw [List.filter_append, List.filter_cons]
        have e1 : pre.filter (fun q => decide (some q.start = (mk' (some r.start) (some r.stop)).start) &&
          decide (some q.stop = (mk' (some r.start) (some r.stop)).stop)) = [] := by
          rw [List.filter_eq_nil_iff]
          intro q hq
          have := p3 q hq r List.mem_cons_self
          have := v q (List.mem_append_left _ hq)
          simp [mk', TF.start, TF.stop]; omega
        have e2 : post.filter (fun q => decide (some q.start = (mk' (some r.start) (some r.stop)).start) &&
          decide (some q.stop = (mk' (some r.start) (some r.stop)).stop)) = [] := by
          rw [List.filter_eq_nil_iff]
          intro q hq
          have := p2 q hq
          have := v r (List.mem_append_right _ List.mem_cons_self)
          simp [mk', TF.start, TF.stop]; omega
        rw [e1, e2]; simp [mk', TF.start, TF.stop]
      rw [this]; rfl
  rw [Results.importFromCache, h1, h2 rows (fun _ h => h), rowsOK_sorted_id hok]

/-- C32, limit: a row cached twice is imported twice, so sums over the imported rows are doubled. -/
theorem C32_duplicate_counterexample :
    Results.importFromCache [(⟨0, 10, 7⟩ : RRow Nat), ⟨0, 10, 7⟩] [mk' (some 0) (some 10)] =
      [⟨0, 10, 7⟩, ⟨0, 10, 7⟩] := by decide +kernel

/-- Non-vacuity of C32. -/
example : RowsOK [(⟨0, 10, 1⟩ : RRow Nat), ⟨20, 30, 2⟩] ∧
    Results.timeframes [(⟨0, 10, 1⟩ : RRow Nat), ⟨20, 30, 2⟩] =
      .ok [mk' (some 0) (some 10), mk' (some 20) (some 30)] := ⟨by simp [RowsOK], rfl⟩

end Nilmtk
