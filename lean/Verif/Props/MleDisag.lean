import Verif.Model.MleDisag
import Verif.Props.Mle
import Mathlib.Algebra.Order.BigOperators.Group.List
import Mathlib.Data.List.Pairwise
/-!
C133: disaggregation with the maximum likelihood model.
-/
namespace Nilmtk

/-! ### Specification -/

/-- `d` is a run the model allows: a rise above the noise from one reading to the next, a later fall below minus the noise within the time window, of sizes
that differ by less than `powerPair`, likely enough. -/
def Allowed {υ : Type} (m : MleModel υ) (rows : List MleRow) (d : MleDet) : Prop :=
  ∃ pre a b post pre' a' b' post', rows = pre ++ a :: b :: post ∧ rows = pre' ++ a' :: b' :: post' ∧
    m.powerNoise < b.2 - a.2 ∧ b'.2 - a'.2 < -m.powerNoise ∧ b.1 < b'.1 ∧ b'.1 < b.1 + m.timeWindow ∧
    |(b.2 - a.2) - (a'.2 - b'.2)| < m.powerPair ∧
    m.thLikelihood ≤ m.likelihood (b.2 - a.2) (b'.2 - a'.2) (b'.1 - b.1) ∧
    d = ⟨b.1, b'.1, m.likelihood (b.2 - a.2) (b'.2 - a'.2) (b'.1 - b.1), b.2 - a.2⟩

/-- The times of two runs do not meet. -/
def RunsApart (d e : MleDet) : Prop := d.offTime ≤ e.onTime ∨ e.offTime ≤ d.onTime

/-- The time is in the run. -/
def MleDet.Covers (d : MleDet) (t : Int) : Prop := d.onTime ≤ t ∧ t < d.offTime

/-! ### Lemmas -/

theorem within_iff (d : MleDet) (t : Int) : d.within t = true ↔ d.Covers t := by
  unfold MleDet.within MleDet.Covers
  simp

theorem mem_mleSteps (rows : List MleRow) (e : MleRow) : e ∈ mleSteps rows ↔ ∃ pre a b post, rows = pre ++ a :: b :: post ∧ e = (b.1, b.2 - a.2) := by
  cases rows with
  | nil =>
    constructor
    · intro h; cases h
    · rintro ⟨pre, a, b, post, h, -⟩
      have := congrArg List.length h
      simp at this
  | cons r rest => exact mem_mleDelta e r rest

theorem mem_detections {υ : Type} (m : MleModel υ) (hn : 0 ≤ m.powerNoise) (rows : List MleRow) (d : MleDet) :
    d ∈ (mleDetections m rows).filter (fun d => decide (m.thLikelihood ≤ d.likelihood)) ↔ Allowed m rows d := by
  unfold mleDetections
  simp only [List.mem_filter, List.mem_flatMap, List.mem_map, decide_eq_true_eq, Bool.and_eq_true, mem_mleSteps]
  constructor
  · rintro ⟨⟨x, ⟨⟨pre, a, b, post, h1, rfl⟩, h2⟩, y, ⟨⟨⟨⟨pre', a', b', post', h3, rfl⟩, h4⟩, h5, h6⟩, h7⟩, rfl⟩, h8⟩
    simp only at *
    rw [abs_of_neg (show b'.2 - a'.2 < 0 by linarith), neg_sub] at h7
    exact ⟨pre, a, b, post, pre', a', b', post', h1, h3, h2, h4, h5, h6, h7, h8, rfl⟩
  · rintro ⟨pre, a, b, post, pre', a', b', post', h1, h3, h2, h4, h5, h6, h7, h8, rfl⟩
    refine ⟨⟨(b.1, b.2 - a.2), ⟨⟨pre, a, b, post, h1, rfl⟩, h2⟩, (b'.1, b'.2 - a'.2), ⟨⟨⟨⟨pre', a', b', post', h3, rfl⟩, h4⟩, h5, h6⟩, ?_⟩, rfl⟩, h8⟩
    simp only
    rw [abs_of_neg (show b'.2 - a'.2 < 0 by linarith), neg_sub]
    exact h7

/-- The power of the runs at a time. -/
def powerOfRuns (kept : List MleDet) (t : Int) : Rat := ((kept.find? (fun d => d.within t)).map MleDet.deltaOn).getD 0

theorem ratSum_zero_iff (l : List Rat) (h : ∀ x ∈ l, 0 ≤ x) : l.sum = 0 ↔ ∀ x ∈ l, x = 0 := by
  induction l with
  | nil => simp
  | cons a l ih =>
    have h0 : 0 ≤ l.sum := List.sum_nonneg (fun x hx => h x (List.mem_cons_of_mem _ hx))
    have ha := h a List.mem_cons_self
    have ih' := ih (fun x hx => h x (List.mem_cons_of_mem _ hx))
    rw [List.sum_cons, List.forall_mem_cons, ← ih']
    constructor
    · intro e; constructor <;> linarith
    · rintro ⟨e1, e2⟩; rw [e1, e2]; simp

theorem powerOfRuns_nonneg (kept : List MleDet) (hk : ∀ k ∈ kept, 0 < k.deltaOn) (t : Int) :
    0 ≤ powerOfRuns kept t ∧ (powerOfRuns kept t = 0 ↔ ∀ k ∈ kept, ¬ k.Covers t) := by
  unfold powerOfRuns
  cases hf : kept.find? (fun d => d.within t) with
  | none =>
    refine ⟨le_refl _, fun _ => ?_, fun _ => rfl⟩
    intro k hk2 hc
    exact absurd ((within_iff k t).2 hc) (List.find?_eq_none.1 hf k hk2)
  | some d =>
    have hd := hk d (List.mem_of_find?_eq_some hf)
    refine ⟨hd.le, fun e => ?_, fun h => ?_⟩
    · exact absurd e (ne_of_gt hd)
    · have : d.within t = true := by simpa using List.find?_some hf
      exact absurd ((within_iff d t).1 this) (h d (List.mem_of_find?_eq_some hf))

/-- What is assumed of a run while it is placed. -/
def Placeable (times : List Int) (d : MleDet) : Prop := 0 < d.deltaOn ∧ d.onTime ∈ times ∧ d.onTime < d.offTime

theorem runsApart_iff (times : List Int) (d e : MleDet) (hd : Placeable times d) (he : Placeable times e) :
    RunsApart d e ↔ ∀ t ∈ times, d.Covers t → ¬ e.Covers t := by
  unfold RunsApart MleDet.Covers
  constructor
  · rintro h t _ ⟨h1, h2⟩ ⟨h3, h4⟩
    omega
  · intro h
    by_contra hc
    have hc' : e.onTime < d.offTime ∧ d.onTime < e.offTime := by omega
    rcases le_total d.onTime e.onTime with hle | hle
    · exact h e.onTime he.2.1 ⟨hle, hc'.1⟩ ⟨le_refl _, he.2.2⟩
    · exact h d.onTime hd.2.1 ⟨le_refl _, hd.2.2⟩ ⟨hle, hc'.2⟩

theorem place_step (times : List Int) (kept : List MleDet) (hk : ∀ k ∈ kept, Placeable times k) (d : MleDet) (hd : Placeable times d) :
    ((∀ k ∈ kept, RunsApart k d) → mlePlace (times.map (fun t => (t, powerOfRuns kept t))) d = times.map (fun t => (t, powerOfRuns (kept ++ [d]) t))) ∧
    ((∃ k ∈ kept, ¬ RunsApart k d) → mlePlace (times.map (fun t => (t, powerOfRuns kept t))) d = times.map (fun t => (t, powerOfRuns kept t))) := by
  have hpos : ∀ k ∈ kept, 0 < k.deltaOn := fun k h => (hk k h).1
  have hsum : (((times.map (fun t => ((t, powerOfRuns kept t) : MleRow))).filter (fun r => d.within r.1)).map Prod.snd).sum = 0 ↔
      ∀ k ∈ kept, RunsApart k d := by
    rw [ratSum_zero_iff]
    · constructor
      · intro h k hk2
        rw [runsApart_iff times k d (hk k hk2) hd]
        intro t ht hkt hdt
        have hz : powerOfRuns kept t = 0 := by
          apply h
          exact List.mem_map.2 ⟨(t, powerOfRuns kept t), List.mem_filter.2 ⟨List.mem_map.2 ⟨t, ht, rfl⟩, (within_iff d t).2 hdt⟩, rfl⟩
        exact (powerOfRuns_nonneg kept hpos t).2.1 hz k hk2 hkt
      · intro h x hx
        obtain ⟨r, hr, rfl⟩ := List.mem_map.1 hx
        obtain ⟨hr1, hr2⟩ := List.mem_filter.1 hr
        obtain ⟨t, ht, rfl⟩ := List.mem_map.1 hr1
        apply (powerOfRuns_nonneg kept hpos t).2.2
        intro k hk2 hkt
        exact (runsApart_iff times k d (hk k hk2) hd).1 (h k hk2) t ht hkt ((within_iff d t).1 hr2)
    · intro x hx
      obtain ⟨r, hr, rfl⟩ := List.mem_map.1 hx
      obtain ⟨t, ht, rfl⟩ := List.mem_map.1 (List.mem_filter.1 hr).1
      exact (powerOfRuns_nonneg kept hpos t).1
  unfold mlePlace
  constructor
  · intro h
    rw [if_pos (hsum.2 h), List.map_map]
    apply List.map_congr_left
    intro t ht
    simp only [Function.comp_apply]
    unfold powerOfRuns
    rw [List.find?_append]
    by_cases hw : d.within t = true
    · rw [if_pos hw]
      have hnone : kept.find? (fun d => d.within t) = none := by
        rw [List.find?_eq_none]
        intro k hk2 hkt
        exact (runsApart_iff times k d (hk k hk2) hd).1 (h k hk2) t ht ((within_iff k t).1 hkt) ((within_iff d t).1 hw)
      rw [hnone]
      simp [hw]
    · rw [if_neg hw]
      simp [hw]
  · rintro ⟨k, hk2, hka⟩
    rw [if_neg (fun e => hka (hsum.1 e k hk2))]

theorem place_all (times : List Int) : ∀ (l kept : List MleDet), (∀ k ∈ kept, Placeable times k) → (∀ d ∈ l, Placeable times d) →
    kept.Pairwise RunsApart → l.Pairwise (fun a b => b.likelihood ≤ a.likelihood) → (∀ k ∈ kept, ∀ d ∈ l, d.likelihood ≤ k.likelihood) →
    ∃ final : List MleDet, (∀ k ∈ kept, k ∈ final) ∧ (∀ k ∈ final, k ∈ kept ∨ k ∈ l) ∧ final.Pairwise RunsApart ∧
      (∀ d ∈ l, d ∈ final ∨ ∃ k ∈ final, ¬ RunsApart k d ∧ d.likelihood ≤ k.likelihood) ∧
      l.foldl mlePlace (times.map (fun t => (t, powerOfRuns kept t))) = times.map (fun t => (t, powerOfRuns final t))
  | [], kept, _, _, hp, _, _ => ⟨kept, fun _ h => h, fun _ h => .inl h, hp, by simp, rfl⟩
  | d :: l, kept, hk, hl, hp, hs, ho => by
    obtain ⟨s1, s2⟩ := place_step times kept hk d (hl d List.mem_cons_self)
    obtain ⟨hs1, hs2⟩ := List.pairwise_cons.1 hs
    by_cases h : ∀ k ∈ kept, RunsApart k d
    · have hk' : ∀ k ∈ kept ++ [d], Placeable times k := by
        intro k hk2
        rcases List.mem_append.1 hk2 with h' | h'
        · exact hk k h'
        · rw [List.mem_singleton.1 h']; exact hl d List.mem_cons_self
      have hp' : (kept ++ [d]).Pairwise RunsApart := by
        rw [List.pairwise_append]
        exact ⟨hp, List.pairwise_singleton _ _, fun a ha b hb => by rw [List.mem_singleton.1 hb]; exact h a ha⟩
      obtain ⟨final, f1, f2, f3, f4, f5⟩ := place_all times l (kept ++ [d]) hk' (fun x hx => hl x (List.mem_cons_of_mem _ hx)) hp' hs2 (by
        intro k hk2 x hx
        rcases List.mem_append.1 hk2 with h' | h'
        · exact ho k h' x (List.mem_cons_of_mem _ hx)
        · rw [List.mem_singleton.1 h']; exact hs1 x hx)
      refine ⟨final, fun k hk2 => f1 k (List.mem_append_left _ hk2), ?_, f3, ?_, ?_⟩
      · intro k hk2
        rcases f2 k hk2 with h' | h'
        · rcases List.mem_append.1 h' with h' | h'
          · exact .inl h'
          · exact .inr (by rw [List.mem_singleton.1 h']; exact List.mem_cons_self)
        · exact .inr (List.mem_cons_of_mem _ h')
      · intro x hx
        rcases List.mem_cons.1 hx with rfl | hx
        · exact .inl (f1 x (List.mem_append_right _ List.mem_cons_self))
        · exact f4 x hx
      · rw [List.foldl_cons, s1 h, f5]
    · have h' : ∃ k ∈ kept, ¬ RunsApart k d := by
        by_contra hc
        exact h (fun k hk2 => by by_contra hn; exact hc ⟨k, hk2, hn⟩)
      obtain ⟨final, f1, f2, f3, f4, f5⟩ := place_all times l kept hk (fun x hx => hl x (List.mem_cons_of_mem _ hx)) hp hs2
        (fun k hk2 x hx => ho k hk2 x (List.mem_cons_of_mem _ hx))
      refine ⟨final, f1, ?_, f3, ?_, ?_⟩
      · intro k hk2
        rcases f2 k hk2 with h'' | h''
        · exact .inl h''
        · exact .inr (List.mem_cons_of_mem _ h'')
      · intro x hx
        rcases List.mem_cons.1 hx with rfl | hx
        · obtain ⟨k, hk2, hn⟩ := h'
          exact .inr ⟨k, f1 k hk2, hn, ho k hk2 x List.mem_cons_self⟩
        · exact f4 x hx
      · rw [List.foldl_cons, s2 h', f5]

theorem allowed_placeable {υ : Type} (m : MleModel υ) (hn : 0 ≤ m.powerNoise) (rows : List MleRow) (d : MleDet) (h : Allowed m rows d) :
    Placeable (rows.map Prod.fst) d := by
  obtain ⟨pre, a, b, post, pre', a', b', post', h1, -, h2, -, h5, -, -, -, rfl⟩ := h
  refine ⟨lt_of_le_of_lt hn h2, ?_, h5⟩
  rw [h1]
  simp

/-! ### Theorems -/

/-- C133. Disaggregation of a chunk of the right units: some of the runs the model allows are chosen, no two of which meet; the power at each reading is
the rise of the run chosen that covers it, or 0; and a run that is allowed but not chosen meets one that was and is at least as likely. -/
theorem C133_disaggregate {υ : Type} [DecidableEq υ] (sort : List MleDet → List MleDet) (hperm : ∀ l, (sort l).Perm l)
    (hsort : ∀ l, (sort l).Pairwise (fun a b => b.likelihood ≤ a.likelihood)) (m : MleModel υ) (hn : 0 ≤ m.powerNoise) (column : υ)
    (hu : m.resistive = true ∨ column = m.units) (rows : List MleRow) :
    ∃ out, mleDisaggregate sort m column rows = .ok out ∧ out.map Prod.fst = rows.map Prod.fst ∧
      ∃ chosen : List MleDet, (∀ d ∈ chosen, Allowed m rows d) ∧ chosen.Pairwise RunsApart ∧
        (∀ d, Allowed m rows d → d ∈ chosen ∨ ∃ k ∈ chosen, ¬ RunsApart k d ∧ d.likelihood ≤ k.likelihood) ∧
        ∀ r ∈ out, (∀ d ∈ chosen, d.Covers r.1 → r.2 = d.deltaOn) ∧ ((∀ d ∈ chosen, ¬ d.Covers r.1) → r.2 = 0) := by
  have hunits : mleUnits m column = .ok column := by
    unfold mleUnits
    rcases hu with h | h
    · simp [h]
    · simp [h]
  have hmem : ∀ d, d ∈ sort ((mleDetections m rows).filter (fun d => decide (m.thLikelihood ≤ d.likelihood))) ↔ Allowed m rows d := by
    intro d
    rw [(hperm _).mem_iff, mem_detections m hn]
  obtain ⟨final, -, f2, f3, f4, f5⟩ := place_all (rows.map Prod.fst)
    (sort ((mleDetections m rows).filter (fun d => decide (m.thLikelihood ≤ d.likelihood)))) [] (by simp)
    (fun d hd => allowed_placeable m hn rows d ((hmem d).1 hd)) List.Pairwise.nil (hsort _) (by simp)
  have hall : ∀ d ∈ final, Allowed m rows d := by
    intro d hd
    rcases f2 d hd with h | h
    · cases h
    · exact (hmem d).1 h
  refine ⟨(rows.map Prod.fst).map (fun t => (t, powerOfRuns final t)), ?_, ?_, final, hall, f3, fun d hd => f4 d ((hmem d).2 hd), ?_⟩
  · unfold mleDisaggregate
    rw [hunits]
    simp only
    rw [← f5, List.map_map]
    rfl
  · rw [List.map_map]
    exact List.map_id' _
  · intro r hr
    obtain ⟨t, -, rfl⟩ := List.mem_map.1 hr
    refine ⟨?_, ?_⟩
    · intro d hd hc
      simp only at hc ⊢
      unfold powerOfRuns
      cases hf : final.find? (fun d => d.within t) with
      | none => exact absurd ((within_iff d t).2 hc) (List.find?_eq_none.1 hf d hd)
      | some e =>
        have he : e ∈ final := List.mem_of_find?_eq_some hf
        have hw : e.within t = true := by simpa using List.find?_some hf
        have hec := (within_iff e t).1 hw
        have : e = d := by
          by_contra hne
          haveI : Std.Symm RunsApart := ⟨fun a b h => h.symm⟩
          have := f3.forall he hd hne
          unfold RunsApart MleDet.Covers at *
          omega
        rw [this]
        rfl
    · intro h
      exact (powerOfRuns_nonneg final (fun k hk => (allowed_placeable m hn rows k (hall k hk)).1) t).2.2 h

/-- C133. A chunk of other units than the model's is refused unless the appliance is resistive; the error is not the `ValueError` the code has a text for. -/
theorem C133_units {υ : Type} [DecidableEq υ] (sort : List MleDet → List MleDet) (m : MleModel υ) (column : υ) (rows : List MleRow) :
    (∃ e, mleDisaggregate sort m column rows = .error e) ↔ m.resistive = false ∧ column ≠ m.units := by
  unfold mleDisaggregate mleUnits
  cases m.resistive with
  | true => simp
  | false =>
    by_cases h : column = m.units
    · simp [h]
    · simp [h]

/-- C133. So the `ValueError` is never raised. -/
theorem C133_error {υ : Type} [DecidableEq υ] (sort : List MleDet → List MleDet) (m : MleModel υ) (column : υ) (rows : List MleRow) :
    m.resistive = false → column ≠ m.units → mleDisaggregate sort m column rows = .error .unboundLocal := by
  intro h1 h2
  unfold mleDisaggregate mleUnits
  simp [h1, h2]

/-! ### Example -/

/-- A model, and a chunk with two overlapping runs. -/
def demoMleModel : MleModel Nat := ⟨0, false, 10, 20, 1000, 0, fun a b t => a + b + t⟩

/-- Sorting by likelihood as the hypotheses of `C133_disaggregate` ask for. -/
example : ∃ sort : List MleDet → List MleDet, (∀ l, (sort l).Perm l) ∧ (∀ l, (sort l).Pairwise (fun a b => b.likelihood ≤ a.likelihood)) ∧
    ∃ d e, Allowed demoMleModel [(0, 0), (10, 100), (20, 205), (30, 100), (40, 0)] d ∧ Allowed demoMleModel [(0, 0), (10, 100), (20, 205), (30, 100), (40, 0)] e ∧
      ¬ RunsApart d e := by
  refine ⟨fun l => l.mergeSort (fun a b => decide (b.likelihood ≤ a.likelihood)), fun l => List.mergeSort_perm l _, ?_, ?_⟩
  · intro l
    have := List.pairwise_mergeSort (le := fun a b : MleDet => decide (b.likelihood ≤ a.likelihood))
      (fun a b c h1 h2 => by simp only [decide_eq_true_eq] at *; exact le_trans h2 h1)
      (fun a b => by simp only [Bool.or_eq_true, decide_eq_true_eq]; exact le_total _ _) l
    exact this.imp (fun h => by simpa using h)
  · refine ⟨⟨10, 40, 30, 100⟩, ⟨20, 30, 10, 105⟩,
      ⟨[], (0, 0), (10, 100), [(20, 205), (30, 100), (40, 0)], [(0, 0), (10, 100), (20, 205)], (30, 100), (40, 0), [], rfl, rfl, ?_⟩,
      ⟨[(0, 0)], (10, 100), (20, 205), [(30, 100), (40, 0)], [(0, 0), (10, 100)], (20, 205), (30, 100), [(40, 0)], rfl, rfl, ?_⟩, ?_⟩
    · decide +kernel
    · decide +kernel
    · unfold RunsApart; decide

end Nilmtk
