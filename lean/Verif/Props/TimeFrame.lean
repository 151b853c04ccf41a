import Verif.Lemmas.TimeFrame
import Mathlib.Data.List.Forall2
/-!
Properties C01–C05, C07–C09 of `nilmtk.TimeFrame`.
-/
namespace Nilmtk
open TF

/-! ### C01: start < end is an invariant -/

/-- The mutating operations of a TimeFrame object. -/
inductive TFOp where
  | setStart (t : Option Int)
  | setEnd (t : Option Int)
  | clear
  | enable (b : Bool)

/-- Executing an operation; a setter that raises leaves the object as it is (the exception is
raised before the assignment, timeframe.py:83-86, 95-98). -/
def TFOp.apply (f : TF) : TFOp → TF
  | .setStart t => match f.setStart t with | .ok g => g | .error _ => f
  | .setEnd t => match f.setEnd t with | .ok g => g | .error _ => f
  | .clear => f.clear
  | .enable b => { f with enabled := b }

/-- Running a history of operations. -/
def TFOp.run (f : TF) (ops : List TFOp) : TF := ops.foldl TFOp.apply f

/-- The history never assigns a bound while the frame is disabled. -/
def AssignsWhileEnabled : TF → List TFOp → Prop
  | _, [] => True
  | f, op :: ops =>
    (match op with
      | .setStart _ | .setEnd _ => f.enabled = true
      | _ => True) ∧ AssignsWhileEnabled (op.apply f) ops

/-- The stored bounds are in order, so they are in order whenever the frame is enabled. -/
def Ordered (f : TF) : Prop := ∀ s e, f.rawStart = some s → f.rawEnd = some e → s < e

/-- C01. Whatever sequence of assignments (made while the frame is enabled), clears and
enable/disable switches is applied to a newly constructed frame, the frame never ends before it
starts. -/
theorem C01_start_before_end_partial (s e : Option Int) (f : TF) (hf : ctor s e = .ok f)
    (ops : List TFOp) (hops : AssignsWhileEnabled f ops) :
    Ordered (TFOp.run f ops) ∧
      ∀ a b, (TFOp.run f ops).start = some a → (TFOp.run f ops).stop = some b → a < b := by
  have h0 : Ordered f := by
    intro a b ha hb
    obtain ⟨rfl, h⟩ := ctor_eq_ok hf
    exact h a b ha hb
  have key : Ordered (TFOp.run f ops) := by
    clear hf
    induction ops generalizing f with
    | nil => exact h0
    | cons op ops ih =>
      obtain ⟨h1, h2⟩ := hops
      refine ih (op.apply f) h2 ?_
      cases op with
      | setStart t =>
        intro a b
        cases t with
        | none => simp [TFOp.apply, TF.setStart]
        | some x =>
          simp only [TFOp.apply, TF.setStart, TF.stop, h1, if_true]
          cases hr : f.rawEnd with
          | none => simp_all
          | some y =>
            simp only
            split
            · rename_i hx; split at hx
              · cases hx
              · cases hx; simp_all; intro h3 h4; omega
            · intro ha hb; exact h0 a b ha hb
      | setEnd t =>
        intro a b
        cases t with
        | none => simp [TFOp.apply, TF.setEnd]
        | some x =>
          simp only [TFOp.apply, TF.setEnd, TF.start, h1, if_true]
          cases hr : f.rawStart with
          | none => simp_all
          | some y =>
            simp only
            split
            · rename_i hx; split at hx
              · cases hx
              · cases hx; simp_all; intro h3 h4; omega
            · intro ha hb; exact h0 a b ha hb
      | clear => intro a b; simp [TFOp.apply, TF.clear]
      | enable b => exact h0
  refine ⟨key, ?_⟩
  intro a b ha hb
  simp only [TF.start, TF.stop] at ha hb
  split at ha
  · simp_all; exact key a b ha hb
  · cases ha

/-- C01, the error branch: while the frame is enabled and ordered, an assignment raises
(`ValueError`) exactly when it would put the bounds out of order, and otherwise stores the value. -/
theorem C01_setter_decides (f : TF) (he : f.enabled = true) (t : Int) :
    (f.setStart (some t) = .error .valueError ↔ ∃ e, f.stop = some e ∧ e ≤ t) ∧
    (f.setEnd (some t) = .error .valueError ↔ ∃ s, f.start = some s ∧ t ≤ s) ∧
    (∀ g, f.setStart (some t) = .ok g → g = { f with rawStart := some t }) ∧
    (∀ g, f.setEnd (some t) = .ok g → g = { f with rawEnd := some t }) := by
  simp only [TF.setStart, TF.setEnd, TF.stop, TF.start, he, if_true]
  refine ⟨?_, ?_, ?_, ?_⟩
  · cases f.rawEnd <;> simp
  · cases f.rawStart <;> simp
  · intro g; cases f.rawEnd with
    | none => simp; intro h; exact h.symm
    | some e => simp only; split <;> intro h <;> cases h; rfl
  · intro g; cases f.rawStart with
    | none => simp; intro h; exact h.symm
    | some e => simp only; split <;> intro h <;> cases h; rfl

/-- C01, negation of the full statement: disabling, assigning and re-enabling gives a frame that
ends before it starts, and no operation raised. -/
theorem C01_disabled_assignment_counterexample :
    ∃ (f : TF) (ops : List TFOp), ctor (some 10) (some 20) = .ok f ∧
      (TFOp.run f ops).start = some 30 ∧ (TFOp.run f ops).stop = some 20 ∧
      (f.clear.setStart (some 30)).isOk ∧
      ({ f with enabled := false }.setStart (some 30)).isOk :=
  ⟨mk' (some 10) (some 20), [.enable false, .setStart (some 30), .enable true], rfl, rfl, rfl,
    rfl, rfl⟩

/-- C01: `clear` always gives an enabled, non-empty frame without bounds, so both setters accept
any timestamp afterwards. -/
theorem C01_clear_accepts_anything (f : TF) (t : Int) :
    f.clear.start = none ∧ f.clear.stop = none ∧ f.clear.empty = false ∧
    (∃ g, f.clear.setStart (some t) = .ok g ∧ g.start = some t ∧ g.stop = none) ∧
    (∃ g, f.clear.setEnd (some t) = .ok g ∧ g.start = none ∧ g.stop = some t) := by
  refine ⟨rfl, rfl, rfl, ?_, ?_⟩
  · exact ⟨_, rfl, rfl, rfl⟩
  · exact ⟨_, rfl, rfl, rfl⟩

example : ∃ f, ctor (some 10) (some 20) = .ok f ∧
    AssignsWhileEnabled f [.setStart (some 5), .setEnd (some 3), .clear, .setEnd (some 7)] :=
  ⟨_, rfl, by simp [AssignsWhileEnabled, TFOp.apply, TF.setStart, TF.setEnd, TF.clear, TF.stop,
    TF.start, blank]⟩

/-! ### C02: intersection is the set of shared instants -/


/-! ### C02: intersection is the set of shared instants -/

/-- C02, exact for closed and half-open frames away from the two exceptional situations:
if the frames do not end together with different `include_end` flags, and no frame starts exactly
at an included end, then an instant lies in the intersection iff it lies in both frames. -/
theorem C02_intersection_pointwise_partial (a b : TF) (t : Int)
    (htie : a.stop = b.stop → a.includeEnd = b.includeEnd)
    (htouch : ∀ f ∈ [a, b], ∀ g ∈ [a, b], ∀ s e, f.start = some s → g.stop = some e →
      g.includeEnd = true → s ≠ e) :
    Mem t (a.intersection b) ↔ Mem t a ∧ Mem t b := by
  have h1 := htouch a (by simp) a (by simp)
  have h2 := htouch a (by simp) b (by simp)
  have h3 := htouch b (by simp) a (by simp)
  have h4 := htouch b (by simp) b (by simp)
  clear htouch
  simp only [Mem]
  rcases inter_cases a b with ⟨h, hs, he, hc⟩ | ⟨h, hs, he, hi, hae, hbe, hc⟩
  · simp only [h]
    constructor
    · intro hh; cases hh.1
    · rintro ⟨⟨ha, ha1, ha2⟩, ⟨hb, hb1, hb2⟩⟩
      rcases hc with hc | hc | ⟨s, e, hs, he, hse⟩
      · rw [ha] at hc; cases hc
      · rw [hb] at hc; cases hc
      · exfalso
        simp only [interStart, interEnd] at hs he
        grind
  · simp only [h, hs, he, hi, hae, hbe, true_and]
    rw [interStart_le, interEnd_incl a b t htie]
    tauto

example : let a := mk' (some 0) (some 10); let b := { mk' (some 3) (some 7) with includeEnd := true }
    (a.stop = b.stop → a.includeEnd = b.includeEnd) ∧
    (∀ f ∈ [a, b], ∀ g ∈ [a, b], ∀ s e, f.start = some s → g.stop = some e →
      g.includeEnd = true → s ≠ e) := by
  simp [mk', TF.start, TF.stop]

/-- C02 for half-open frames, in full: an instant lies in the intersection iff it lies in both. -/
theorem C02_intersection_halfopen (a b : TF) (t : Int) (ha : a.includeEnd = false)
    (hb : b.includeEnd = false) :
    Mem t (a.intersection b) ↔ Mem t a ∧ Mem t b := by
  apply C02_intersection_pointwise_partial
  · intro _; rw [ha, hb]
  · intro f _ g hg s e _ _ hi
    simp at hg
    rcases hg with rfl | rfl <;> simp_all

/-- C02: for half-open frames `empty` reports exactly that no instant is shared. -/
theorem C02_empty_iff_disjoint (a b : TF) (ha : a.includeEnd = false) (hb : b.includeEnd = false) :
    (a.intersection b).empty = true ↔ ¬ ∃ t, Mem t a ∧ Mem t b := by
  constructor
  · rintro h ⟨t, ht⟩
    rw [← C02_intersection_halfopen a b t ha hb] at ht
    rw [ht.1] at h; cases h
  · intro h
    rcases inter_cases a b with ⟨h', _⟩ | ⟨h', hs, he, hi, _, _, hc⟩
    · exact h'
    · exfalso
      apply h
      simp only [← C02_intersection_halfopen a b _ ha hb]
      rcases hs' : interStart a b with _ | s <;> rcases he' : interEnd a b with _ | e
      · exact ⟨0, h', by simp [hs, hs'], by simp [he, he']⟩
      · exact ⟨e - 1, h', by simp [hs, hs'], by simp [he, he']; omega⟩
      · exact ⟨s, h', by simp [hs, hs'], by simp [he, he']⟩
      · exact ⟨s, h', by simp [hs, hs'], by simp [he, he']; left; exact hc s e hs' he'⟩

/-- C02: the sharp statement for arbitrary `include_end` flags: away from the two end points
themselves, the intersection is always exact. -/
theorem C02_intersection_interior (a b : TF) (t : Int) (h1 : a.stop ≠ some t) (h2 : b.stop ≠ some t) :
    Mem t (a.intersection b) ↔ Mem t a ∧ Mem t b := by
  have key : ∀ (f : TF), f.stop ≠ some t →
      (Mem t f ↔ Mem t { f with includeEnd := false }) := by
    intro f hf
    simp only [Mem, TF.start, TF.stop] at *
    constructor
    · rintro ⟨x, y, z⟩
      refine ⟨x, y, ?_⟩
      intro e he
      rcases z e he with h | ⟨_, h⟩
      · exact Or.inl h
      · subst h; exact absurd he hf
    · rintro ⟨x, y, z⟩
      refine ⟨x, y, ?_⟩
      intro e he
      rcases z e he with h | ⟨h, _⟩
      · exact Or.inl h
      · cases h
  have hstop : (a.intersection b).stop ≠ some t := by
    rcases inter_cases a b with ⟨_, _, h, _⟩ | ⟨_, _, h, _⟩
    · rw [h]; simp
    · rw [h]
      unfold interEnd
      revert h1 h2
      generalize a.stop = x
      generalize b.stop = y
      intro h1 h2
      cases x <;> cases y <;> simp_all
      omega
  have hb' : Mem t (a.intersection b) ↔
      Mem t (TF.intersection { a with includeEnd := false } { b with includeEnd := false }) := by
    rw [key _ hstop]
    have e1 : ({ a with includeEnd := false } : TF).start = a.start := rfl
    have e2 : ({ b with includeEnd := false } : TF).start = b.start := rfl
    have e3 : ({ a with includeEnd := false } : TF).stop = a.stop := rfl
    have e4 : ({ b with includeEnd := false } : TF).stop = b.stop := rfl
    have : ({ a.intersection b with includeEnd := false } : TF) =
        { TF.intersection { a with includeEnd := false } { b with includeEnd := false } with
          includeEnd := false } := by
      simp only [TF.intersection, interStart, interEnd, e1, e2, e3, e4]
      split
      · rfl
      · split
        · split <;> rfl
        · rfl
    rw [this, ← key]
    simpa [TF.stop] using (by
      rcases inter_cases { a with includeEnd := false } { b with includeEnd := false } with
        ⟨_, _, h, _⟩ | ⟨_, _, h, _⟩
      · rw [h]; simp
      · rw [h]
        unfold interEnd
        simp only [e3, e4]
        revert h1 h2
        generalize a.stop = x
        generalize b.stop = y
        intro h1 h2
        cases x <;> cases y <;> simp_all
        omega : (TF.intersection { a with includeEnd := false } { b with includeEnd := false }).stop ≠ some t)
  rw [hb', C02_intersection_halfopen _ _ _ rfl rfl, ← key a h1, ← key b h2]

/-- C02, negation of the full statement for closed ends, first situation: two frames that end
together, one closed and one half-open. The shared end is wrongly included (or excluded), depending
on the order of the operands. -/
theorem C02_closed_tie_counterexample :
    ∃ a b : TF, WellFormed a ∧ WellFormed b ∧
      Mem 10 (a.intersection b) ∧ ¬ (Mem 10 a ∧ Mem 10 b) ∧ ¬ Mem 10 (b.intersection a) :=
  ⟨mk' (some 0) (some 10), { mk' (some 0) (some 10) with includeEnd := true },
    by simp [WellFormed, mk', TF.start, TF.stop], by simp [WellFormed, mk', TF.start, TF.stop],
    by simp [Mem, TF.intersection, interStart, interEnd, interInclude, mk', built, TF.start, TF.stop],
    by simp [Mem, mk', TF.start, TF.stop],
    by simp [Mem, TF.intersection, interStart, interEnd, interInclude, mk', built, TF.start, TF.stop]⟩

/-- C02, second situation: frames that share only a closed end point are reported as disjoint. -/
theorem C02_closed_touch_counterexample :
    ∃ a b : TF, WellFormed a ∧ WellFormed b ∧ Mem 10 a ∧ Mem 10 b ∧
      (a.intersection b).empty = true :=
  ⟨{ mk' (some 0) (some 10) with includeEnd := true }, mk' (some 10) (some 20),
    by simp [WellFormed, mk', TF.start, TF.stop], by simp [WellFormed, mk', TF.start, TF.stop],
    by simp [Mem, mk', TF.start, TF.stop], by simp [Mem, mk', TF.start, TF.stop],
    by decide⟩

/-! ### C03: algebraic laws of intersection -/

theorem eq_iff (a b : TF) : a.eq b = true ↔ a.start = b.start ∧ a.stop = b.stop ∧ a.empty = b.empty := by
  simp only [TF.eq, Bool.and_eq_true, beq_iff_eq, and_assoc]
  constructor <;> rintro ⟨h1, h2, h3⟩ <;> exact ⟨h1.symm, h2.symm, h3.symm⟩

/-- C03: `a.intersection(b) == b.intersection(a)`. -/
theorem C03_intersection_comm (a b : TF) : (a.intersection b).eq (b.intersection a) = true := by
  rw [eq_iff]
  have h1 : interStart a b = interStart b a := by
    unfold interStart; generalize a.start = x; generalize b.start = y
    cases x <;> cases y <;> simp [Int.max_comm]
  have h2 : interEnd a b = interEnd b a := by
    unfold interEnd; generalize a.stop = x; generalize b.stop = y
    cases x <;> cases y <;> simp [Int.min_comm]
  unfold TF.intersection
  rw [h1, h2, Bool.or_comm]
  split
  · exact ⟨rfl, rfl, rfl⟩
  · split
    · split <;> exact ⟨rfl, rfl, rfl⟩
    · exact ⟨rfl, rfl, rfl⟩

/-- C03: the `include_end` flag of an intersection does depend on the order of the operands. -/
theorem C03_include_end_not_comm :
    ∃ a b : TF, (a.intersection b).includeEnd ≠ (b.intersection a).includeEnd :=
  ⟨mk' (some 0) (some 10), { mk' (some 0) (some 10) with includeEnd := true }, by decide⟩

/-- C03: `a.intersection(b).intersection(c) == a.intersection(b.intersection(c))`. -/
theorem C03_intersection_assoc (a b c : TF) :
    ((a.intersection b).intersection c).eq (a.intersection (b.intersection c)) = true := by
  rw [eq_iff]
  have hE : ((a.intersection b).intersection c).empty = (a.intersection (b.intersection c)).empty := by
    rw [Bool.eq_iff_iff, inter3_empty_iff, inter3_empty_iff']
  rcases h : ((a.intersection b).intersection c).empty with _ | _
  · have h' := hE ▸ h
    have n1 : (a.intersection b).empty = false := by
      rcases hx : (a.intersection b).empty with _ | _
      · rfl
      · have : ((a.intersection b).intersection c).empty = true := by
          rw [inter_empty_iff]; exact Or.inl hx
        rw [h] at this; cases this
    have n2 : (b.intersection c).empty = false := by
      rcases hx : (b.intersection c).empty with _ | _
      · rfl
      · have : (a.intersection (b.intersection c)).empty = true := by
          rw [inter_empty_iff]; exact Or.inr (Or.inl hx)
        rw [h'] at this; cases this
    obtain ⟨p1, p2⟩ := inter_bounds_of_nonempty _ _ h
    obtain ⟨q1, q2⟩ := inter_bounds_of_nonempty _ _ h'
    obtain ⟨r1, r2⟩ := inter_bounds_of_nonempty _ _ n1
    obtain ⟨u1, u2⟩ := inter_bounds_of_nonempty _ _ n2
    rw [p1, p2, q1, q2, r1, r2, u1, u2, omax_assoc, omin_assoc]
    exact ⟨rfl, rfl, h'.symm⟩
  · have h' := hE ▸ h
    obtain ⟨p1, p2⟩ := inter_bounds_of_empty _ _ h
    obtain ⟨q1, q2⟩ := inter_bounds_of_empty _ _ h'
    rw [p1, p2, q1, q2, h']
    exact ⟨rfl, rfl, rfl⟩

/-- C03: `a.intersection(a) == a` for well-formed frames. -/
theorem C03_intersection_idem (a : TF) (h : WellFormed a) : (a.intersection a).eq a = true := by
  rw [eq_iff]
  have hs : omax a.start a.start = a.start := by cases a.start <;> simp [omax]
  have he : omin a.stop a.stop = a.stop := by cases a.stop <;> simp [omin]
  rcases hE : (a.intersection a).empty with _ | _
  · obtain ⟨p1, p2⟩ := inter_bounds_of_nonempty _ _ hE
    rw [p1, p2, hs, he]
    refine ⟨rfl, rfl, ?_⟩
    rcases hx : a.empty with _ | _
    · rfl
    · have : (a.intersection a).empty = true := by rw [inter_empty_iff]; exact Or.inl hx
      rw [hE] at this; cases this
  · obtain ⟨p1, p2⟩ := inter_bounds_of_empty _ _ hE
    rw [inter_empty_iff, hs, he] at hE
    have hae : a.empty = true := by
      rcases hE with h1 | h1 | ⟨x, y, h1, h2, h3⟩
      · exact h1
      · exact h1
      · have := h.1 x y h1 h2; omega
    obtain ⟨q1, q2⟩ := h.2 hae
    rw [p1, p2, q1, q2, hae]; exact ⟨rfl, rfl, rfl⟩

/-- C03: `None`, and the unbounded frame, are neutral; an empty frame is absorbing. -/
theorem C03_intersection_units (a e : TF) (h : WellFormed a) (he : e.empty = true) :
    a.intersectionOpt none = a ∧
    (a.intersection (mk' none none)).eq a = true ∧
    ((mk' none none).intersection a).eq a = true ∧
    (a.intersection e).empty = true ∧ (e.intersection a).empty = true := by
  have hn : (mk' none none).start = none ∧ (mk' none none).stop = none ∧
      (mk' none none).empty = false := ⟨rfl, rfl, rfl⟩
  have key : (a.intersection (mk' none none)).eq a = true := by
    rw [eq_iff]
    have hs : omax a.start (mk' none none).start = a.start := by
      rw [hn.1]; cases a.start <;> simp [omax]
    have he : omin a.stop (mk' none none).stop = a.stop := by
      rw [hn.2.1]; cases a.stop <;> simp [omin]
    rcases hE : (a.intersection (mk' none none)).empty with _ | _
    · obtain ⟨p1, p2⟩ := inter_bounds_of_nonempty _ _ hE
      rw [p1, p2, hs, he]
      refine ⟨rfl, rfl, ?_⟩
      rcases hx : a.empty with _ | _
      · rfl
      · have : (a.intersection (mk' none none)).empty = true := by
          rw [inter_empty_iff]; exact Or.inl hx
        rw [hE] at this; cases this
    · obtain ⟨p1, p2⟩ := inter_bounds_of_empty _ _ hE
      rw [inter_empty_iff, hs, he] at hE
      have hae : a.empty = true := by
        rcases hE with h1 | h1 | ⟨x, y, h1, h2, h3⟩
        · exact h1
        · rw [hn.2.2] at h1; cases h1
        · have := h.1 x y h1 h2; omega
      obtain ⟨q1, q2⟩ := h.2 hae
      rw [p1, p2, q1, q2, hae]; exact ⟨rfl, rfl, rfl⟩
  refine ⟨rfl, key, ?_, ?_, ?_⟩
  · have := C03_intersection_comm (mk' none none) a
    rw [eq_iff] at this key ⊢
    exact ⟨this.1.trans key.1, this.2.1.trans key.2.1, this.2.2.trans key.2.2⟩
  · rw [inter_empty_iff]; exact Or.inr (Or.inl he)
  · rw [inter_empty_iff]; exact Or.inl he

/-- C03: every intersection is well-formed, so the laws apply to all derived frames. -/
theorem C03_intersection_wellFormed (a b : TF) : WellFormed (a.intersection b) := by
  rcases inter_cases a b with ⟨h, hs, he, _⟩ | ⟨h, hs, he, _, _, _, hc⟩
  · exact ⟨by simp [hs], fun _ => ⟨hs, he⟩⟩
  · refine ⟨?_, by simp [h]⟩
    rw [hs, he]; exact hc

example : WellFormed (mk' (some 3) (some 8)) := by simp [WellFormed, mk', TF.start, TF.stop]

/-! ### C04: overlap check -/

/-- C04: `check_for_overlap` raises `ValueError` iff the frames share an instant. -/
theorem C04_check_for_overlap (a b : TF) (ha : a.includeEnd = false) (hb : b.includeEnd = false) :
    (a.checkForOverlap b = .error .valueError ↔ ∃ t, Mem t a ∧ Mem t b) ∧
    (a.checkForOverlap b = .ok () ↔ ¬ ∃ t, Mem t a ∧ Mem t b) := by
  have h := C02_empty_iff_disjoint a b ha hb
  unfold checkForOverlap
  by_cases hE : (a.intersection b).empty = true
  · have h1 := h.1 hE
    simp only [hE, if_true]; simp [h1]
  · have h1 : ∃ t, Mem t a ∧ Mem t b := Classical.not_not.1 (fun hc => hE (h.2 hc))
    simp only [hE]
    simp [h1]

/-- C04: frames that merely touch are accepted, in either order, whatever their `include_end`. -/
theorem C04_touching_ok (a b : TF) (m : Int) (h1 : a.stop = some m) (h2 : b.start = some m) :
    a.checkForOverlap b = .ok () ∧ b.checkForOverlap a = .ok () := by
  have key : conf (omax a.start b.start) (omin a.stop b.stop) := by
    rw [h1, h2]
    cases a.start <;> cases b.stop <;> simp [conf, omax, omin] <;> omega
  constructor
  · have : (a.intersection b).empty = true := by rw [inter_empty_iff]; exact Or.inr (Or.inr key)
    simp [checkForOverlap, this]
  · have : (b.intersection a).empty = true := by
      rw [inter_empty_iff, omax_comm, omin_comm]; exact Or.inr (Or.inr key)
    simp [checkForOverlap, this]

example : (mk' (some 0) (some 5)).stop = some 5 ∧ (mk' (some 5) none).start = some 5 := ⟨rfl, rfl⟩

/-! ### C05: split -/

theorem splitLoop_spec (thr : Int) (hthr : 0 < thr) (s e : Int) (hse : s < e) :
    (splitLoop s e thr).err = none ∧ Tiles s e (splitLoop s e thr).out ∧
    (∀ f ∈ (splitLoop s e thr).out, ∃ x y, HalfOpen f x y ∧ y - x ≤ thr) ∧
    (∀ f ∈ (splitLoop s e thr).out.dropLast, ∃ x y, HalfOpen f x y ∧ y - x = thr) ∧
    (splitLoop s e thr).out ≠ [] := by
  induction hn : (e - s).toNat using Nat.strongRecOn generalizing s with
  | _ n ih =>
    rw [splitLoop]
    split
    · refine ⟨rfl, ?_, ?_, by simp, by simp⟩
      · exact Tiles.cons s e e _ [] ⟨rfl, rfl, rfl, rfl⟩ hse (Tiles.nil e)
      · intro f hf
        simp at hf
        subst hf
        exact ⟨s, e, ⟨rfl, rfl, rfl, rfl⟩, by omega⟩
    · rename_i h0
      rw [dif_neg (by omega)]
      obtain ⟨h1, h2, h3, h4, h5⟩ := ih (e - (s + thr)).toNat (by omega) (s + thr) (by omega) rfl
      refine ⟨h1, ?_, ?_, ?_, by simp [Gen.cons]⟩
      · exact Tiles.cons s (s + thr) e _ _ ⟨rfl, rfl, rfl, rfl⟩ (by omega) h2
      · intro f hf
        simp only [Gen.cons, List.mem_cons] at hf
        rcases hf with rfl | hf
        · exact ⟨s, s + thr, ⟨rfl, rfl, rfl, rfl⟩, by omega⟩
        · exact h3 f hf
      · intro f hf
        simp only [Gen.cons] at hf
        rw [List.dropLast_cons_of_ne_nil h5, List.mem_cons] at hf
        rcases hf with rfl | hf
        · exact ⟨s, s + thr, ⟨rfl, rfl, rfl, rfl⟩, by omega⟩
        · exact h4 f hf

/-- C05: for a half-open bounded frame and a positive threshold, `split` finishes without error;
its pieces tile the frame, none is longer than the threshold, and all but the last have exactly the
threshold duration. -/
theorem C05_split_tiles (f : TF) (s e thr : Int) (hf : HalfOpen f s e) (hse : s < e) (hthr : 0 < thr) :
    (f.split thr).err = none ∧ Tiles s e (f.split thr).out ∧
    (∀ p ∈ (f.split thr).out, ∃ x y, HalfOpen p x y ∧ y - x ≤ thr) ∧
    (∀ p ∈ (f.split thr).out.dropLast, ∃ x y, HalfOpen p x y ∧ y - x = thr) := by
  obtain ⟨h1, h2, h3, h4⟩ := id hf
  have htd : f.timedelta = some (e - s) := by simp [TF.timedelta, h3, h4]
  unfold TF.split
  simp only [htd, h3, h4]
  split
  · refine ⟨rfl, Tiles.cons s e e f [] hf hse (Tiles.nil e), ?_, by simp⟩
    intro p hp
    simp at hp
    subst hp
    exact ⟨s, e, hf, by omega⟩
  · have := splitLoop_spec thr hthr s e hse
    exact ⟨this.1, this.2.1, this.2.2.1, this.2.2.2.1⟩

/-- What tiling means for instants: each instant of `[s, e)` lies in exactly one piece, and no
piece contains any other instant. -/
theorem tiles_mem {s e : Int} {fs : List TF} (h : Tiles s e fs) :
    s ≤ e ∧ (∀ t, Covered fs t ↔ s ≤ t ∧ t < e) ∧
    fs.Pairwise (fun f g => ∀ t, ¬ (Mem t f ∧ Mem t g)) := by
  induction h with
  | nil s => refine ⟨Int.le_refl s, fun t => ?_, List.Pairwise.nil⟩; simp [Covered]
  | cons s m e f fs hf hsm ht ih =>
    obtain ⟨i1, i2, i3⟩ := ih
    obtain ⟨h1, h2, h3, h4⟩ := hf
    have hm : ∀ t, Mem t f ↔ s ≤ t ∧ t < m := by
      intro t; simp [Mem, h1, h2, h3, h4]
    refine ⟨by omega, ?_, ?_⟩
    · intro t
      have := i2 t
      simp only [Covered, List.mem_cons, exists_eq_or_imp] at this ⊢
      rw [hm, this]; omega
    · refine List.Pairwise.cons ?_ i3
      intro g hg t ⟨ha, hb⟩
      have h5 := (i2 t).1 ⟨g, hg, hb⟩
      rw [hm] at ha; omega

/-- C05 for instants: the pieces of `split` cover exactly the frame, each instant once. -/
theorem C05_split_covers (f : TF) (s e thr : Int) (hf : HalfOpen f s e) (hse : s < e) (hthr : 0 < thr) :
    (∀ t, Covered (f.split thr).out t ↔ Mem t f) ∧
    (f.split thr).out.Pairwise (fun p q => ∀ t, ¬ (Mem t p ∧ Mem t q)) := by
  obtain ⟨_, h, _, _⟩ := C05_split_tiles f s e thr hf hse hthr
  obtain ⟨_, h2, h3⟩ := tiles_mem h
  refine ⟨fun t => ?_, h3⟩
  obtain ⟨a1, a2, a3, a4⟩ := hf
  rw [h2 t]; simp [Mem, a1, a2, a3, a4]

/-- C05, error branch: a non-positive threshold raises `ValueError` before anything is yielded, and
an open-ended frame raises `AttributeError`. -/
theorem C05_split_errors (f : TF) (s e thr : Int) (h3 : f.start = some s) (h4 : f.stop = some e)
    (hse : s < e) (hthr : thr ≤ 0) : f.split thr = ⟨[], some .valueError⟩ := by
  have htd : f.timedelta = some (e - s) := by simp [TF.timedelta, h3, h4]
  unfold TF.split
  simp only [htd, h3, h4]
  rw [if_neg (by omega), splitLoop, dif_neg (by omega), dif_pos (by omega)]
  rfl

theorem C05_split_open_ended (f : TF) (thr : Int) (h : f.start = none ∨ f.stop = none)
    (he : f.empty = false) : f.split thr = ⟨[], some .attributeError⟩ := by
  have htd : f.timedelta = none := by
    unfold TF.timedelta; rcases h with h | h <;> simp [h, he]
  unfold TF.split; simp [htd]; rfl

/-- C05: an empty frame without bounds yields itself, and raises `TypeError` only for a negative threshold. -/
theorem C05_split_empty (f : TF) (thr : Int) (h : f.start = none ∨ f.stop = none) (he : f.empty = true) :
    f.split thr = if 0 ≤ thr then ⟨[f], none⟩ else ⟨[], some .typeError⟩ := by
  have htd : f.timedelta = some 0 := by
    unfold TF.timedelta; rcases h with h | h <;> simp [h, he]
  unfold TF.split
  simp only [htd, ge_iff_le]
  split
  · rfl
  · rcases h with h | h
    · rw [h]; rfl
    · rw [h]; cases f.start <;> rfl

/-- C05: a closed end is lost when the frame is really split: the last instant is in the frame but
in no piece. -/
theorem C05_closed_end_lost_counterexample :
    ∃ f : TF, WellFormed f ∧ Mem 10 f ∧ ¬ Covered (f.split 4).out 10 := by
  refine ⟨{ mk' (some 0) (some 10) with includeEnd := true },
    by simp [WellFormed, mk', TF.start, TF.stop], by simp [Mem, mk', TF.start, TF.stop], ?_⟩
  have : (TF.split { mk' (some 0) (some 10) with includeEnd := true } 4).out =
      [mk' (some 0) (some 4), mk' (some 4) (some 8), mk' (some 8) (some 10)] := by
    simp [TF.split, TF.timedelta, mk', TF.start, TF.stop, splitLoop, Gen.cons]
  rw [this]
  simp [Covered, Mem, mk', TF.start, TF.stop]

example : HalfOpen (mk' (some 0) (some 10)) 0 10 ∧ (0:Int) < 10 ∧ (0:Int) < 3 :=
  ⟨⟨rfl, rfl, rfl, rfl⟩, by omega, by omega⟩

/-! ### C07: union -/

/-- C07: the union of two bounded, ordered frames is a half-open frame, contains every instant of
both (half-open) frames, and lies inside every half-open frame that contains both. -/
theorem C07_union_hull (a b : TF) (sa ea sb eb : Int) (ha : HalfOpen a sa ea) (hb : HalfOpen b sb eb)
    (h1 : sa < ea) (h2 : sb < eb) :
    ∃ u, a.union b = .ok u ∧ (∀ t, Mem t a ∨ Mem t b → Mem t u) ∧
      ∀ c : TF, c.includeEnd = false → (∀ t, Mem t a ∨ Mem t b → Mem t c) → ∀ t, Mem t u → Mem t c := by
  obtain ⟨a1, a2, a3, a4⟩ := ha
  obtain ⟨b1, b2, b3, b4⟩ := hb
  have hma : ∀ t, Mem t a ↔ sa ≤ t ∧ t < ea := by intro t; simp [Mem, a1, a2, a3, a4]
  have hmb : ∀ t, Mem t b ↔ sb ≤ t ∧ t < eb := by intro t; simp [Mem, b1, b2, b3, b4]
  refine ⟨mk' (some (min sa sb)) (some (max ea eb)), ?_, ?_, ?_⟩
  · simp only [TF.union, a3, a4, b3, b4]
    apply ctor_ok
    intro x y hx hy; cases hx; cases hy; omega
  · intro t
    rw [hma, hmb]
    simp [Mem, mk', TF.start, TF.stop]; omega
  · intro c hc hcon t ht
    have hu : min sa sb ≤ t ∧ t < max ea eb := by
      simpa [Mem, mk', TF.start, TF.stop] using ht
    have c1 := hcon sa (Or.inl ((hma _).2 (by omega)))
    have c2 := hcon sb (Or.inr ((hmb _).2 (by omega)))
    have c3 := hcon (ea - 1) (Or.inl ((hma _).2 (by omega)))
    have c4 := hcon (eb - 1) (Or.inr ((hmb _).2 (by omega)))
    simp only [Mem, hc] at *
    refine ⟨c1.1, ?_, ?_⟩
    · intro s hs
      have := c1.2.1 s hs; have := c2.2.1 s hs; omega
    · intro e he
      have := c3.2.2 e he; have := c4.2.2 e he
      simp at *; omega

/-- C07, error branch: a missing bound makes `union` raise `TypeError`. -/
theorem C07_union_open_ended (a b : TF)
    (h : a.start = none ∨ b.start = none ∨ a.stop = none ∨ b.stop = none) :
    a.union b = .error .typeError := by
  unfold TF.union
  generalize a.start = x at *; generalize b.start = y at *
  generalize a.stop = z at *; generalize b.stop = w at *
  cases x <;> cases y <;> cases z <;> cases w <;> simp_all

example : HalfOpen (mk' (some 0) (some 4)) 0 4 ∧ HalfOpen (mk' (some 2) (some 9)) 2 9 :=
  ⟨⟨rfl, rfl, rfl, rfl⟩, ⟨rfl, rfl, rfl, rfl⟩⟩

/-! ### C08: dictionary round trip -/

/-- C08: an enabled or disabled, ordered, non-empty frame survives the dictionary round trip. -/
theorem C08_dict_round_trip (f : TF) (h : WellFormed f) (he : f.empty = false) :
    ∃ g, TF.fromDict f.toDict = .ok g ∧ g.eq f = true := by
  refine ⟨mk' f.start f.stop, ctor_ok h.1, ?_⟩
  rw [eq_iff]; exact ⟨rfl, rfl, he.symm⟩

/-- C08 for lists. -/
theorem C08_list_round_trip (fs : List TF) (h : ∀ f ∈ fs, WellFormed f ∧ f.empty = false) :
    ∃ gs, timeframesFromDicts (listOfTimeframeDicts fs) = .ok gs ∧
      List.Forall₂ (fun g f => TF.eq g f = true) gs fs := by
  induction fs with
  | nil => exact ⟨[], rfl, List.Forall₂.nil⟩
  | cons f fs ih =>
    obtain ⟨gs, h1, h2⟩ := ih (fun x hx => h x (List.mem_cons_of_mem _ hx))
    obtain ⟨hw, he⟩ := h f (List.mem_cons_self)
    obtain ⟨g, h3, h4⟩ := C08_dict_round_trip f hw he
    refine ⟨g :: gs, ?_, List.Forall₂.cons h4 h2⟩
    simp only [listOfTimeframeDicts, List.map_cons, timeframesFromDicts, h3] at *
    rw [h1]

/-- C08: exactly the empty frames are lost: an empty frame never survives the round trip. -/
theorem C08_empty_lost (f : TF) (he : f.empty = true) (g : TF)
    (hg : TF.fromDict f.toDict = .ok g) : g.eq f = false := by
  obtain ⟨rfl, _⟩ := ctor_eq_ok hg
  rw [Bool.eq_false_iff, Ne, eq_iff]
  rintro ⟨_, _, h⟩
  rw [he] at h; cases h

/-- C08: what an empty frame comes back as: the frame that contains every instant. -/
theorem C08_empty_becomes_unbounded (f : TF) (h : WellFormed f) (he : f.empty = true) :
    ∃ g, TF.fromDict f.toDict = .ok g ∧ ∀ t, Mem t g ∧ ¬ Mem t f := by
  obtain ⟨h1, h2⟩ := h.2 he
  refine ⟨mk' none none, ?_, ?_⟩
  · simp only [TF.toDict, TF.fromDict, h1, h2]; rfl
  · intro t; simp [Mem, mk', TF.start, TF.stop, he]

example : WellFormed (mk' (some 3) none) ∧ (mk' (some 3) none).empty = false ∧
    WellFormed (built none none true false) ∧ (built none none true false).empty = true := by
  simp [WellFormed, mk', TF.start, TF.stop, built]

/-! ### C09: equality, hash and order -/

/-- C09: `==` is an equivalence relation and equal frames hash alike (and conversely the hashed
tuple determines equality). -/
theorem C09_eq_equivalence_and_hash :
    (∀ a : TF, a.eq a = true) ∧ (∀ a b : TF, a.eq b = true → b.eq a = true) ∧
    (∀ a b c : TF, a.eq b = true → b.eq c = true → a.eq c = true) ∧
    (∀ a b : TF, a.eq b = true ↔ a.hashKey = b.hashKey) := by
  simp only [eq_iff, hashKey, Prod.mk.injEq]
  refine ⟨by simp, ?_, ?_, by simp⟩
  · rintro a b ⟨h1, h2, h3⟩; exact ⟨h1.symm, h2.symm, h3.symm⟩
  · rintro a b c ⟨h1, h2, h3⟩ ⟨g1, g2, g3⟩
    exact ⟨h1.trans g1, h2.trans g2, h3.trans g3⟩

/-- `a < b` holds. -/
def Lt (a b : TF) : Prop := a.lt b = .ok true

/-- C09: `<` never raises unless both frames have no start, and is a strict weak order: irreflexive,
transitive, and incomparability (`not <` both ways) is transitive among frames with a start. -/
theorem C09_lt_strict_weak_order :
    (∀ a b : TF, (∃ e, a.lt b = .error e) ↔ a.start = none ∧ b.start = none) ∧
    (∀ a : TF, ¬ Lt a a) ∧ (∀ a b c : TF, Lt a b → Lt b c → Lt a c) ∧
    (∀ a b : TF, Lt a b → ¬ Lt b a) ∧
    (∀ a b c : TF, b.start ≠ none → ¬ Lt a b → ¬ Lt b a → ¬ Lt b c → ¬ Lt c b → ¬ Lt a c ∧ ¬ Lt c a) := by
  simp only [Lt, TF.lt]
  refine ⟨?_, ?_, ?_, ?_, ?_⟩
  · intro a b; generalize a.start = x; generalize b.start = y
    cases x <;> cases y <;> simp
  · intro a; generalize a.start = x; cases x <;> simp
  · intro a b c; generalize a.start = x; generalize b.start = y; generalize c.start = z
    cases x <;> cases y <;> cases z <;> simp; omega
  · intro a b; generalize a.start = x; generalize b.start = y
    cases x <;> cases y <;> simp; omega
  · intro a b c; generalize a.start = x; generalize b.start = y; generalize c.start = z
    cases x <;> cases y <;> cases z <;> simp; omega

/-- C09, negation: the comparison operators derived by `total_ordering` are inconsistent. Two
frames with the same start and different ends are each `>` the other, and neither is `<=` the
other. -/
theorem C09_total_ordering_counterexample :
    ∃ a b : TF, WellFormed a ∧ WellFormed b ∧
      a.gt b = .ok true ∧ b.gt a = .ok true ∧ a.le b = .ok false ∧ b.le a = .ok false :=
  ⟨mk' (some 0) (some 1), mk' (some 0) (some 2), by simp [WellFormed, mk', TF.start, TF.stop],
    by simp [WellFormed, mk', TF.start, TF.stop], rfl, rfl, rfl, rfl⟩

/-- C09: a frame without a start sorts before every frame with a start; two such frames cannot be
compared (`TypeError`). -/
theorem C09_unbounded_start_sorts_first (a b : TF) (ha : a.start = none) :
    (b.start ≠ none → Lt a b ∧ b.lt a = .ok false) ∧ (b.start = none → a.lt b = .error .typeError) := by
  simp only [Lt, TF.lt, ha]
  generalize b.start = y
  cases y <;> simp

example : (mk' none (some 3)).start = none ∧ (mk' (some 3) (some 5)).start ≠ none ∧
    (mk' (some 3) (some 4)).start = some 3 := by decide

/-- C09: on frames with different starts the derived operators agree with `<`. -/
theorem C09_derived_operators_partial (a b : TF) (x y : Int) (ha : a.start = some x)
    (hb : b.start = some y) (hxy : x ≠ y) :
    (a.gt b = .ok true ↔ Lt b a) ∧ (a.le b = .ok true ↔ Lt a b) ∧ (a.ge b = .ok true ↔ Lt b a) := by
  have hne : a.eq b = false := by
    rw [Bool.eq_false_iff, Ne, eq_iff, ha, hb]
    rintro ⟨h, _⟩; cases h; exact hxy rfl
  simp only [Lt, TF.gt, TF.le, TF.ge, TF.lt, ha, hb, hne]
  simp; omega

end Nilmtk
