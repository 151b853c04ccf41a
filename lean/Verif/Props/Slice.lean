import Verif.Model.Slice
import Verif.Props.TimeFrame
/-!
C128: which rows `TimeFrame.slice` gives.
-/
namespace Nilmtk

/-! ### Specification -/

/-- `out` is what lies in the frame: the rows in their order, those and only those whose time lies in it. -/
def RowsWithin {α : Type} (f : TF) (rows out : List (Int × α)) : Prop :=
  ∃ p : Int × α → Bool, (∀ r, p r = true ↔ Mem r.1 f) ∧ out = rows.filter p

/-! ### Lemmas -/

theorem rowsWithin_unique {α : Type} {f : TF} {rows a b : List (Int × α)} (ha : RowsWithin f rows a) (hb : RowsWithin f rows b) : a = b := by
  obtain ⟨p, hp, rfl⟩ := ha
  obtain ⟨q, hq, rfl⟩ := hb
  apply List.filter_congr
  intro r _
  rw [Bool.eq_iff_iff, hp, hq]

theorem slice_halfOpen {α : Type} {f : TF} {s e : Int} (hf : HalfOpen f s e) (rows : List (Int × α)) :
    f.slice rows = .ok (rows.filter (fun r => decide (s ≤ r.1 ∧ r.1 < e)), f) := by
  obtain ⟨h1, h2, h3, h4⟩ := hf
  unfold TF.slice
  rw [h1, h3, h4, h2]
  simp

/-- C128. A TimeFrame that is not empty and has both bounds gives the rows whose times lie in it, in their order, and itself as their timeframe. -/
theorem C128_slice_partial {α : Type} (f : TF) (rows : List (Int × α)) (he : f.empty = false) (hs : f.start ≠ none) (hst : f.stop ≠ none) :
    ∃ out, f.slice rows = .ok (out, f) ∧ RowsWithin f rows out := by
  unfold TF.slice RowsWithin Mem
  rw [he]
  cases h1 : f.start with
  | none => exact absurd h1 hs
  | some s =>
    cases h2 : f.stop with
    | none => exact absurd h2 hst
    | some e =>
      cases h3 : f.includeEnd with
      | true =>
        refine ⟨_, rfl, _, ?_, rfl⟩
        intro r
        simp only [Bool.and_eq_true, decide_eq_true_eq, Option.some.injEq, true_and, forall_eq']
        omega
      | false =>
        refine ⟨_, rfl, _, ?_, rfl⟩
        intro r
        simp only [Bool.and_eq_true, decide_eq_true_eq, Option.some.injEq, true_and, forall_eq', Bool.false_eq_true, false_and, or_false]

/-- C128. All others are refused: an empty one with an `UnboundLocalError`, one without a bound with a `TypeError`. -/
theorem C128_refused {α : Type} (f : TF) (rows : List (Int × α)) :
    (f.empty = true → f.slice rows = .error .unboundLocal) ∧
    (f.empty = false → (f.start = none ∨ f.stop = none) → f.slice rows = .error .typeError) := by
  refine ⟨fun h => by unfold TF.slice; rw [h]; rfl, ?_⟩
  intro h1 h2
  unfold TF.slice
  rw [h1]
  rcases h2 with h | h
  · rw [h]; rfl
  · rw [h]
    cases f.start <;> rfl

/-- C128. A user expects every TimeFrame to give the rows that lie in it, as loading does, for which a bound that is `None` is no bound. It does not,
not even for a TimeFrame with a start and no end. -/
theorem C128_open_counterexample : ¬ ∀ (s e : Option Int) (f : TF) (rows : List (Int × Rat)), TF.ctor s e = .ok f →
    ∃ out, f.slice rows = .ok (out, f) ∧ RowsWithin f rows out := by
  intro h
  obtain ⟨out, h1, -⟩ := h (some 3) none (TF.mk' (some 3) none) [] (by decide +kernel)
  rw [(C128_refused (TF.mk' (some 3) none) []).2 rfl (.inr rfl)] at h1
  cases h1

/-- C128. Slicing by consecutive TimeFrames one after the other neither loses nor repeats a row: put together, the slices of rows in order of time are
the slice by the whole. -/
theorem C128_tiles {α : Type} {s e : Int} {fs : List TF} (h : Tiles s e fs) (rows : List (Int × α)) (hr : rows.Pairwise (fun a b => a.1 ≤ b.1)) :
    ∃ outs : List (List (Int × α)), List.Forall₂ (fun f out => f.slice rows = .ok (out, f)) fs outs ∧
      outs.flatten = rows.filter (fun r => decide (s ≤ r.1 ∧ r.1 < e)) := by
  induction h with
  | nil s =>
    refine ⟨[], .nil, ?_⟩
    symm
    rw [List.flatten_nil, List.filter_eq_nil_iff]
    intro r _
    simp only [decide_eq_true_eq]
    omega
  | cons s m e f fs hf hsm ht ih =>
    obtain ⟨outs, i1, i2⟩ := ih
    refine ⟨_, .cons (slice_halfOpen hf rows) i1, ?_⟩
    rw [List.flatten_cons, i2]
    have hme : m ≤ e := (tiles_mem ht).1
    clear i1 i2 ht hf outs
    induction rows with
    | nil => rfl
    | cons r rows ih =>
      obtain ⟨hr1, hr2⟩ := List.pairwise_cons.1 hr
      by_cases c1 : r.1 < m
      · have e1 : decide (s ≤ r.1 ∧ r.1 < m) = decide (s ≤ r.1 ∧ r.1 < e) := decide_eq_decide.2 (by omega)
        have e2 : decide (m ≤ r.1 ∧ r.1 < e) = false := decide_eq_false (by omega)
        rw [List.filter_cons, List.filter_cons, List.filter_cons, e1, e2]
        cases decide (s ≤ r.1 ∧ r.1 < e) with
        | true => simpa using ih hr2
        | false => simpa using ih hr2
      · have n1 : (r :: rows).filter (fun r => decide (s ≤ r.1 ∧ r.1 < m)) = [] := by
          rw [List.filter_eq_nil_iff]
          intro x hx
          simp only [decide_eq_true_eq]
          rcases List.mem_cons.1 hx with rfl | hx
          · omega
          · have := hr1 x hx
            omega
        rw [n1, List.nil_append]
        apply List.filter_congr
        intro x hx
        rw [decide_eq_decide]
        rcases List.mem_cons.1 hx with rfl | hx
        · omega
        · have := hr1 x hx
          omega

/-- C128. So the slices by the pieces of `split` are, put together, the slice by the TimeFrame itself. -/
theorem C128_split {α : Type} (f : TF) (s e thr : Int) (hf : HalfOpen f s e) (hse : s < e) (hthr : 0 < thr) (rows : List (Int × α))
    (hr : rows.Pairwise (fun a b => a.1 ≤ b.1)) :
    ∃ outs : List (List (Int × α)), List.Forall₂ (fun p out => p.slice rows = .ok (out, p)) (f.split thr).out outs ∧
      f.slice rows = .ok (outs.flatten, f) := by
  obtain ⟨outs, h1, h2⟩ := C128_tiles (C05_split_tiles f s e thr hf hse hthr).2.1 rows hr
  exact ⟨outs, h1, by rw [slice_halfOpen hf, h2]⟩

/-- C128. Slicing a slice: by two half-open TimeFrames that have an instant in common it is the slice by their intersection, whatever the order;
without one it has no rows, while the slice by the intersection is an `UnboundLocalError`. -/
theorem C128_twice {α : Type} (f g : TF) (s e s' e' : Int) (hf : HalfOpen f s e) (hg : HalfOpen g s' e') (rows : List (Int × α)) :
    ∃ out both, f.slice rows = .ok (out, f) ∧ g.slice out = .ok (both, g) ∧
      ((∃ t, Mem t f ∧ Mem t g) → (f.intersection g).slice rows = .ok (both, f.intersection g)) ∧
      ((¬ ∃ t, Mem t f ∧ Mem t g) → both = [] ∧ (f.intersection g).slice rows = .error .unboundLocal) := by
  refine ⟨_, _, slice_halfOpen hf rows, slice_halfOpen hg _, ?_⟩
  obtain ⟨f1, f2, f3, f4⟩ := hf
  obtain ⟨g1, g2, g3, g4⟩ := hg
  have hm : ∀ t, (Mem t f ∧ Mem t g) ↔ (s ≤ t ∧ t < e) ∧ (s' ≤ t ∧ t < e') := by
    intro t
    simp [Mem, f1, f2, f3, f4, g1, g2, g3, g4]
  have hi : ∀ (a b : Int), f.start = some a → g.start = some b → TF.interStart f g = some (max a b) := by
    intro a b ha hb
    unfold TF.interStart
    rw [ha, hb]
  have hst := hi s s' f3 g3
  have hen : TF.interEnd f g = some (min e e') := by
    unfold TF.interEnd
    rw [f4, g4]
  have hinc : TF.interInclude f g = false := by
    unfold TF.interInclude
    rw [f2, g2]
    split
    · rfl
    · split <;> rfl
  constructor
  · rintro ⟨t, ht⟩
    have := (hm t).1 ht
    have hlt : max s s' < min e e' := by omega
    have hI : f.intersection g = TF.built (some (max s s')) (some (min e e')) false false := by
      unfold TF.intersection
      rw [f1, g1, hst, hen, hinc]
      simp only [Bool.or_self, Bool.false_eq_true, if_false]
      rw [if_neg (by omega)]
    rw [hI, slice_halfOpen (s := max s s') (e := min e e') ⟨rfl, rfl, rfl, rfl⟩, List.filter_filter]
    congr 2
    apply List.filter_congr
    intro r _
    rw [← Bool.decide_and, decide_eq_decide]
    omega
  · intro hno
    have hle : max s s' ≥ min e e' := by
      by_contra hc
      exact hno ⟨max s s', (hm _).2 (by omega)⟩
    constructor
    · rw [List.filter_filter, List.filter_eq_nil_iff]
      intro r _
      rw [← Bool.decide_and, decide_eq_true_eq]
      intro h
      exact hno ⟨r.1, (hm _).2 ⟨h.2, h.1⟩⟩
    · apply (C128_refused _ _).1
      unfold TF.intersection
      rw [f1, g1, hst, hen]
      simp only [Bool.or_self, Bool.false_eq_true, if_false]
      rw [if_pos hle]
      rfl

/-! ### Examples -/

example : (TF.mk' (some 2) (some 5)).slice [((1 : Int), 'a'), (2, 'b'), (4, 'c'), (5, 'd')] = .ok ([(2, 'b'), (4, 'c')], TF.mk' (some 2) (some 5)) := by
  decide +kernel

example : ({ TF.mk' (some 2) (some 5) with includeEnd := true } : TF).slice [((5 : Int), 'd'), (2, 'b'), (1, 'a')] =
    .ok ([(5, 'd'), (2, 'b')], { TF.mk' (some 2) (some 5) with includeEnd := true }) := by
  decide +kernel

example : Tiles 0 10 [TF.mk' (some 0) (some 4), TF.mk' (some 4) (some 10)] :=
  .cons 0 4 10 _ _ ⟨rfl, rfl, rfl, rfl⟩ (by decide) (.cons 4 10 10 _ _ ⟨rfl, rfl, rfl, rfl⟩ (by decide) (.nil 10))

example : HalfOpen (TF.mk' (some 0) (some 4)) 0 4 ∧ HalfOpen (TF.mk' (some 3) (some 9)) 3 9 ∧
    ∃ t, Mem t (TF.mk' (some 0) (some 4)) ∧ Mem t (TF.mk' (some 3) (some 9)) :=
  ⟨⟨rfl, rfl, rfl, rfl⟩, ⟨rfl, rfl, rfl, rfl⟩, 3, by simp [Mem, TF.mk', TF.start, TF.stop]⟩

end Nilmtk
