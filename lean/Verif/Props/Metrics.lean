import Verif.Model.Metrics
import Mathlib.Data.Rat.Floor
import Mathlib.Data.List.Count
import Mathlib.Algebra.BigOperators.Group.List.Basic
import Mathlib.Algebra.Order.BigOperators.Group.List
import Mathlib.Tactic.Linarith
import Mathlib.Tactic.Positivity
import Mathlib.Tactic.FieldSimp
/-!
C59: the error metrics. C65: the alignment of two meters. C66: the F1 score.
-/
namespace Nilmtk

/-! ### Specification -/

/-- The absolute error of a row, 0 where the prediction or the truth is missing. -/
def rowAbsError (r : Int × Option Rat × Option Rat) : Rat :=
  match r.2 with
  | (some a, some b) => |a - b|
  | _ => 0

/-- The squared error of a row, 0 where the prediction or the truth is missing. -/
def rowSqError (r : Int × Option Rat × Option Rat) : Rat :=
  match r.2 with
  | (some a, some b) => (a - b) * (a - b)
  | _ => 0

/-- The row has a prediction and a truth. -/
def complete (r : Int × Option Rat × Option Rat) : Bool := r.2.1.isSome && r.2.2.isSome

/-- The true power of a row, 0 where it is missing. -/
def rowTruth (r : Int × Option Rat × Option Rat) : Rat := r.2.2.getD 0

/-- Prediction and truth agree wherever both are there. -/
def Agree (rows : AChunk) : Prop := ∀ t a b, (t, some a, some b) ∈ rows → a = b

/-! ### Lemmas -/

theorem diffs_abs (c : AChunk) : ((diffs c).map (fun x => |x|)).sum = (c.map rowAbsError).sum := by
  induction c with
  | nil => rfl
  | cons r c ih =>
    obtain ⟨t, a, b⟩ := r
    unfold diffs at ih ⊢
    cases a <;> cases b <;> simp [rowAbsError, ih]

theorem diffs_sq (c : AChunk) : ((diffs c).map (fun x => x ^ 2)).sum = (c.map rowSqError).sum := by
  induction c with
  | nil => rfl
  | cons r c ih =>
    obtain ⟨t, a, b⟩ := r
    unfold diffs at ih ⊢
    simp only [pow_two] at ih ⊢
    cases a <;> cases b <;> simp [rowSqError, ih]

theorem diffs_length (c : AChunk) : (diffs c).length = c.countP complete := by
  induction c with
  | nil => rfl
  | cons r c ih =>
    obtain ⟨t, a, b⟩ := r
    unfold diffs at ih ⊢
    cases a <;> cases b <;> simp [complete, ih]

theorem truth_sum (c : AChunk) : (c.filterMap (fun r => r.2.2)).sum = (c.map rowTruth).sum := by
  induction c with
  | nil => rfl
  | cons r c ih =>
    obtain ⟨t, a, b⟩ := r
    cases b <;> simp [rowTruth, ih]

theorem mneLoop_eq (cs : List AChunk) : ∀ d g, mneLoop d g cs =
    (d + (cs.flatten.map rowAbsError).sum, g + (cs.flatten.map rowTruth).sum) := by
  induction cs with
  | nil => intro d g; simp [mneLoop]
  | cons c cs ih => intro d g; simp [mneLoop, ih, diffs_abs, truth_sum, add_assoc]

theorem rmsLoop_eq (cs : List AChunk) : ∀ s n, rmsLoop s n cs =
    (s + (cs.flatten.map rowSqError).sum, n + cs.flatten.countP complete) := by
  induction cs with
  | nil => intro s n; simp [rmsLoop]
  | cons c cs ih => intro s n; simp [rmsLoop, ih, diffs_sq, diffs_length, add_assoc]

theorem sum_zero_iff {α : Type} (f : α → Rat) (h : ∀ x, 0 ≤ f x) (l : List α) : (l.map f).sum = 0 ↔ ∀ x ∈ l, f x = 0 := by
  induction l with
  | nil => simp
  | cons x l ih =>
    have h1 := h x
    have h2 : 0 ≤ (l.map f).sum := List.sum_nonneg (by simpa using fun y _ => h y)
    simp only [List.map_cons, List.sum_cons, List.mem_cons, forall_eq_or_imp]
    rw [← ih]
    constructor
    · intro h; constructor <;> linarith
    · rintro ⟨a, b⟩; rw [a, b, add_zero]

theorem rowAbsError_nonneg (r : Int × Option Rat × Option Rat) : 0 ≤ rowAbsError r := by
  unfold rowAbsError
  split
  · exact abs_nonneg _
  · exact le_refl _

theorem rowSqError_nonneg (r : Int × Option Rat × Option Rat) : 0 ≤ rowSqError r := by
  unfold rowSqError
  split
  · exact mul_self_nonneg _
  · exact le_refl _

theorem agree_iff_abs (rows : AChunk) : Agree rows ↔ ∀ r ∈ rows, rowAbsError r = 0 := by
  constructor
  · rintro h ⟨t, a, b⟩ hr
    unfold rowAbsError
    split
    · rename_i a' b' he
      obtain ⟨rfl, rfl⟩ := Prod.mk.inj he
      rw [h t a' b' hr, sub_self, abs_zero]
    · rfl
  · intro h t a b hr
    have := h _ hr
    simp only [rowAbsError, abs_eq_zero] at this
    linarith

theorem agree_iff_sq (rows : AChunk) : Agree rows ↔ ∀ r ∈ rows, rowSqError r = 0 := by
  constructor
  · rintro h ⟨t, a, b⟩ hr
    unfold rowSqError
    split
    · rename_i a' b' he
      obtain ⟨rfl, rfl⟩ := Prod.mk.inj he
      rw [h t a' b' hr, sub_self, mul_zero]
    · rfl
  · intro h t a b hr
    have := h _ hr
    simp only [rowSqError, mul_self_eq_zero] at this
    linarith

/-! ### C59 -/

/-- The mean normalised error is the sum of the absolute errors over the sum of the true power, all chunks taken
together. Where the true power adds up to 0 it is NaN or infinite; without any chunk `ZeroDivisionError` is raised. -/
theorem C59_mne_value (cs : List AChunk) :
    (cs = [] → mneForMeter cs = .error .zeroDivisionError) ∧
    (cs ≠ [] → (cs.flatten.map rowTruth).sum ≠ 0 →
      mneForMeter cs = .ok (.fin ((cs.flatten.map rowAbsError).sum / (cs.flatten.map rowTruth).sum))) ∧
    (cs ≠ [] → (cs.flatten.map rowTruth).sum = 0 →
      (Agree cs.flatten → mneForMeter cs = .ok .nan) ∧ (¬ Agree cs.flatten → mneForMeter cs = .ok .posInf)) := by
  refine ⟨?_, ?_, ?_⟩
  · rintro rfl; rfl
  · intro h h0
    simp only [mneForMeter, mneLoop_eq, zero_add, if_neg h, if_neg h0]
  · intro h h0
    have : Agree cs.flatten ↔ (cs.flatten.map rowAbsError).sum = 0 := by
      rw [agree_iff_abs, sum_zero_iff _ rowAbsError_nonneg]
    simp only [mneForMeter, mneLoop_eq, h, zero_add, h0, if_true, if_false]
    exact ⟨fun ha => by rw [if_pos (this.1 ha)], fun ha => by rw [if_neg (fun hh => ha (this.2 hh))]⟩

/-- How the aligned data are cut into chunks does not matter (as long as there is a chunk). -/
theorem C59_mne_chunking (cs cs' : List AChunk) (h : cs ≠ []) (h' : cs' ≠ []) (he : cs.flatten = cs'.flatten) :
    mneForMeter cs = mneForMeter cs' := by
  simp [mneForMeter, mneLoop_eq, h, h', he]

/-- With true power that is nowhere negative the error is not negative. -/
theorem C59_mne_nonneg_partial (cs : List AChunk) (v : Rat) (hg : ∀ r ∈ cs.flatten, 0 ≤ rowTruth r)
    (h : mneForMeter cs = .ok (.fin v)) : 0 ≤ v := by
  simp only [mneForMeter, mneLoop_eq, zero_add] at h
  split at h
  · cases h
  · split at h
    · split at h <;> cases h
    · simp only [Except.ok.injEq, FloatVal.fin.injEq] at h
      rw [← h]
      apply div_nonneg
      · exact List.sum_nonneg (by
          intro x hx
          obtain ⟨r, -, rfl⟩ := List.mem_map.1 hx
          exact rowAbsError_nonneg r)
      · exact List.sum_nonneg (by
          intro x hx
          obtain ⟨r, hr, rfl⟩ := List.mem_map.1 hx
          exact hg r hr)

/-- The error is 0 exactly when prediction and truth agree wherever both are there (and the true power does not add up to
0). -/
theorem C59_mne_zero_iff (cs : List AChunk) (h : cs ≠ []) (h0 : (cs.flatten.map rowTruth).sum ≠ 0) :
    mneForMeter cs = .ok (.fin 0) ↔ Agree cs.flatten := by
  rw [(C59_mne_value cs).2.1 h h0, agree_iff_abs, ← sum_zero_iff _ rowAbsError_nonneg]
  simp only [Except.ok.injEq, FloatVal.fin.injEq, div_eq_zero_iff, h0, or_false]

/-- With negative true power (net metering) the error can be negative. -/
theorem C59_mne_negative_counterexample :
    ∃ cs : List AChunk, ∃ v : Rat, mneForMeter cs = .ok (.fin v) ∧ v < 0 :=
  ⟨[[(0, some 1, some (-2))]], -3 / 2, by decide +kernel, by decide +kernel⟩

/-- Missing predictions are not errors: a prediction that is NaN while the appliance uses power does not count. -/
theorem C59_missing_prediction_counterexample :
    ∃ cs : List AChunk, (∃ t, (t, none, some 1000) ∈ cs.flatten) ∧ mneForMeter cs = .ok (.fin 0) ∧
      meanSquare cs = .ok (some 0) :=
  ⟨[[(0, some 5, some 5), (1, none, some 1000)]], ⟨1, by simp⟩, by decide +kernel, by decide +kernel⟩

/-- The RMS error: its square is the mean of the squared errors of the rows that have both readings, all chunks taken
together. -/
theorem C59_rms_value (cs : List AChunk) :
    (cs = [] → rmsForMeter cs = .error .zeroDivisionError) ∧
    (cs ≠ [] → cs.flatten.countP complete = 0 → rmsForMeter cs = .ok none) ∧
    (cs.flatten.countP complete ≠ 0 → ∃ v : Real, rmsForMeter cs = .ok (some v) ∧ 0 ≤ v ∧
      v * v * cs.flatten.countP complete = ((cs.flatten.map rowSqError).sum : Rat)) := by
  refine ⟨?_, ?_, ?_⟩
  · rintro rfl; rfl
  · intro h h0
    simp [rmsForMeter, meanSquare, rmsLoop_eq, h, h0]
  · intro h0
    have h : cs ≠ [] := by rintro rfl; simp at h0
    have hms : meanSquare cs = .ok (some ((cs.flatten.map rowSqError).sum / (cs.flatten.countP complete : Nat))) := by
      simp only [meanSquare, rmsLoop_eq, zero_add, if_neg h, if_neg h0]
    refine ⟨Real.sqrt (((cs.flatten.map rowSqError).sum / (cs.flatten.countP complete : Nat) : Rat) : Real), ?_,
      Real.sqrt_nonneg _, ?_⟩
    · simp only [rmsForMeter, hms, Option.map_some]
    · rw [Real.mul_self_sqrt]
      · have : ((cs.flatten.countP complete : Nat) : Real) ≠ 0 := by exact_mod_cast h0
        push_cast
        field_simp
      · have : 0 ≤ (cs.flatten.map rowSqError).sum := List.sum_nonneg (by
          intro x hx
          obtain ⟨r, -, rfl⟩ := List.mem_map.1 hx
          exact rowSqError_nonneg r)
        exact_mod_cast div_nonneg this (Nat.cast_nonneg _)

/-- How the aligned data are cut into chunks does not matter. -/
theorem C59_rms_chunking (cs cs' : List AChunk) (h : cs ≠ []) (h' : cs' ≠ []) (he : cs.flatten = cs'.flatten) :
    rmsForMeter cs = rmsForMeter cs' := by
  simp [rmsForMeter, meanSquare, rmsLoop_eq, h, h', he]

/-- The RMS error is 0 exactly when prediction and truth agree wherever both are there. -/
theorem C59_rms_zero_iff (cs : List AChunk) (h0 : cs.flatten.countP complete ≠ 0) :
    rmsForMeter cs = .ok (some 0) ↔ Agree cs.flatten := by
  obtain ⟨v, hv, hn, hs⟩ := (C59_rms_value cs).2.2 h0
  have hc : ((cs.flatten.countP complete : Nat) : Real) ≠ 0 := by exact_mod_cast h0
  rw [agree_iff_sq, ← sum_zero_iff _ rowSqError_nonneg, hv]
  constructor
  · intro h
    simp only [Except.ok.injEq, Option.some.injEq] at h
    rw [h] at hs
    simp only [mul_zero, zero_mul] at hs
    exact_mod_cast hs.symm
  · intro h
    rw [h] at hs
    simp only [Rat.cast_zero, mul_eq_zero, or_self, hc, or_false] at hs
    rw [hs]

example : mneForMeter [[(0, some 5, some 4), (1, none, some 2)], [(2, some 1, some 4), (3, some 1, none)]] =
    .ok (.fin (2 / 5)) := by decide +kernel
example : meanSquare [[(0, some 5, some 4), (1, none, some 2)], [(2, some 1, some 4), (3, some 1, none)]] =
    .ok (some 5) := by decide +kernel

/-! ### C65: specification -/

/-- The readings of a series in the `p` nanoseconds from `t` on, without NaN. -/
def readingsIn (p t : Int) (s : PSeries) : List Rat :=
  (s.filter (fun r => decide (t ≤ r.1 ∧ r.1 < t + p))).filterMap Prod.snd

/-- Their mean, NaN if there are none. -/
def windowMean (p t : Int) (s : PSeries) : Option Rat :=
  if readingsIn p t s = [] then none else some ((readingsIn p t s).sum / ((readingsIn p t s).length : Nat))

/-- The series is in order of time. -/
def SortedSeries (s : PSeries) : Prop := s.Pairwise (fun a b => a.1 ≤ b.1)

/-- `c` is the table of the means of `m` and `s` over whole sample periods: ascending times, each a multiple of the period,
with the two means, and every reading of both series falls into one of the rows. -/
def Aligned (p : Int) (m s : PSeries) (c : AChunk) : Prop :=
  c.Pairwise (fun a b => a.1 < b.1) ∧
  (∀ r ∈ c, p ∣ r.1 ∧ r.2.1 = windowMean p r.1 m ∧ r.2.2 = windowMean p r.1 s) ∧
  (∀ x, x ∈ m ∨ x ∈ s → ∃ r ∈ c, r.1 ≤ x.1 ∧ x.1 < r.1 + p)

/-! ### C65: lemmas -/

theorem binOf_eq_iff (p x t : Int) (hp : 0 < p) : binOf p x = t ↔ p ∣ t ∧ t ≤ x ∧ x < t + p := by
  unfold binOf
  have h1 := Int.emod_add_mul_ediv x p
  have h2 := Int.emod_nonneg x hp.ne'
  have h3 := Int.emod_lt_of_pos x hp
  constructor
  · rintro rfl
    refine ⟨⟨x / p, mul_comm _ _⟩, ?_, ?_⟩ <;> nlinarith
  · rintro ⟨⟨k, rfl⟩, h4, h5⟩
    have : x / p = k := by
      apply le_antisymm
      · by_contra hc
        have : k + 1 ≤ x / p := by omega
        nlinarith
      · by_contra hc
        have : x / p + 1 ≤ k := by omega
        nlinarith
    rw [this, mul_comm]

theorem binOf_mono (p x y : Int) (hp : 0 < p) (h : x ≤ y) : binOf p x ≤ binOf p y := by
  unfold binOf
  exact mul_le_mul_of_nonneg_right (Int.ediv_le_ediv hp h) hp.le

theorem meanSkipNan_window (p t : Int) (hp : 0 < p) (ht : p ∣ t) (s : PSeries) :
    meanSkipNan ((s.filter (fun r => decide (binOf p r.1 = t))).map Prod.snd) = windowMean p t s := by
  have : ((s.filter (fun r => decide (binOf p r.1 = t))).map Prod.snd).filterMap id = readingsIn p t s := by
    unfold readingsIn
    rw [List.filterMap_map]
    congr 1
    apply List.filter_congr
    intro r _
    rw [decide_eq_decide, binOf_eq_iff p r.1 t hp]
    exact ⟨fun h => h.2, fun h => ⟨ht, h⟩⟩
  unfold meanSkipNan windowMean
  rw [this]

theorem at_map (l : List Int) (g : Int → Option Rat) (t : Int) :
    PSeries.at (l.map (fun x => (x, g x))) t = if t ∈ l then g t else none := by
  unfold PSeries.at
  induction l with
  | nil => simp
  | cons x l ih =>
    simp only [List.map_cons, List.find?_cons]
    by_cases h : x = t
    · subst h; simp
    · rw [show (x == t) = false by simpa using h]
      simp only [List.mem_cons, Ne.symm h, false_or]
      exact ih

/-- The bins of a series. -/
def gridOf (p : Int) (s : PSeries) : List Int :=
  match s.head?, s.getLast? with
  | some f, some l => (List.range (((binOf p l.1 - binOf p f.1) / p).toNat + 1)).map (fun i : Nat => binOf p f.1 + i * p)
  | _, _ => []

theorem dvd_binOf (p x : Int) : p ∣ binOf p x := ⟨x / p, mul_comm _ _⟩

theorem mem_gridOf_dvd (p : Int) (s : PSeries) (t : Int) (h : t ∈ gridOf p s) : p ∣ t := by
  unfold gridOf at h
  split at h
  · rename_i f l _ _
    obtain ⟨i, -, rfl⟩ := List.mem_map.1 h
    exact (dvd_binOf p f.1).add ⟨i, mul_comm _ _⟩
  · simp at h

theorem resampleMean_eq (p : Int) (hp : 0 < p) (s : PSeries) :
    resampleMean p s = (gridOf p s).map (fun t => (t, windowMean p t s)) := by
  have hd := mem_gridOf_dvd p s
  unfold resampleMean
  unfold gridOf at hd ⊢
  cases hf : s.head? with
  | none => rfl
  | some f =>
    cases hl : s.getLast? with
    | none => rfl
    | some l =>
      rw [hf, hl] at hd
      simp only at hd ⊢
      rw [List.map_map]
      apply List.map_congr_left
      intro i hi
      simp only [Function.comp_apply]
      rw [meanSkipNan_window p _ hp (hd _ (List.mem_map.2 ⟨i, hi, rfl⟩))]

theorem bin_mem_gridOf (p : Int) (hp : 0 < p) (s : PSeries) (hs : SortedSeries s) (x : Int × Option Rat) (hx : x ∈ s) :
    binOf p x.1 ∈ gridOf p s := by
  cases s with
  | nil => simp at hx
  | cons f s =>
    have hl : (f :: s).getLast? = some ((f :: s).getLast (by simp)) := List.getLast?_eq_getLast_of_ne_nil _
    unfold gridOf
    rw [hl]
    simp only [List.head?_cons]
    have h1 : f.1 ≤ x.1 := by
      rcases List.mem_cons.1 hx with rfl | h
      · exact le_refl _
      · exact (List.pairwise_cons.1 hs).1 x h
    have h2 : x.1 ≤ ((f :: s).getLast (by simp)).1 := by
      have := List.dropLast_append_getLast (l := f :: s) (by simp)
      unfold SortedSeries at hs
      rw [← this] at hs hx
      rcases List.mem_append.1 hx with h | h
      · exact (List.pairwise_append.1 hs).2.2 x h _ (by simp)
      · rw [List.mem_singleton] at h
        rw [h]
    have b1 := binOf_mono p _ _ hp h1
    have b2 := binOf_mono p _ _ hp h2
    generalize ((f :: s).getLast (by simp)) = l at *
    obtain ⟨a, ha⟩ := dvd_binOf p f.1
    obtain ⟨b, hb⟩ := dvd_binOf p x.1
    obtain ⟨c, hc⟩ := dvd_binOf p l.1
    rw [ha, hb] at b1
    rw [hb, hc] at b2
    have hab : a ≤ b := le_of_mul_le_mul_left b1 hp
    have hbc : b ≤ c := le_of_mul_le_mul_left b2 hp
    rw [List.mem_map]
    refine ⟨(b - a).toNat, ?_, ?_⟩
    · rw [List.mem_range, ha, hc, ← mul_sub, Int.mul_ediv_cancel_left _ hp.ne']
      omega
    · rw [ha, hb, Int.toNat_of_nonneg (by omega)]
      ring

theorem at_resample (p : Int) (hp : 0 < p) (s : PSeries) (hs : SortedSeries s) (t : Int) (ht : p ∣ t) :
    (resampleMean p s).at t = windowMean p t s := by
  rw [resampleMean_eq p hp, at_map]
  split
  · rfl
  · rename_i h
    have : readingsIn p t s = [] := by
      unfold readingsIn
      rw [show s.filter (fun r => decide (t ≤ r.1 ∧ r.1 < t + p)) = [] by
        rw [List.filter_eq_nil_iff]
        intro r hr hb
        rw [decide_eq_true_eq] at hb
        exact h (((binOf_eq_iff p r.1 t hp).2 ⟨ht, hb⟩) ▸ bin_mem_gridOf p hp s hs r hr)]
      rfl
    simp [windowMean, this]

theorem join_aligned (p : Int) (hp : 0 < p) (m s : PSeries) (hm : SortedSeries m) (hs : SortedSeries s) :
    Aligned p m s (joinSeries (resampleMean p m) (resampleMean p s)) := by
  have idx : ∀ q : PSeries, (resampleMean p q).map Prod.fst = gridOf p q := by
    intro q
    rw [resampleMean_eq p hp, List.map_map]
    exact List.map_id _
  have mem : ∀ t, t ∈ ((gridOf p m ++ gridOf p s).dedup.insertionSort (· ≤ ·)) ↔ t ∈ gridOf p m ∨ t ∈ gridOf p s := by
    intro t
    rw [List.mem_insertionSort, List.mem_dedup, List.mem_append]
  unfold joinSeries
  rw [idx, idx]
  refine ⟨?_, ?_, ?_⟩
  · rw [List.pairwise_map]
    have h1 := List.pairwise_insertionSort (r := fun a b : Int => a ≤ b) (gridOf p m ++ gridOf p s).dedup
    have h2 : ((gridOf p m ++ gridOf p s).dedup.insertionSort (· ≤ ·)).Nodup :=
      (List.perm_insertionSort _ _).nodup_iff.2 (List.nodup_dedup _)
    exact (h1.and h2).imp (fun h => lt_of_le_of_ne h.1 h.2)
  · intro r hr
    obtain ⟨t, ht, rfl⟩ := List.mem_map.1 hr
    have hd : p ∣ t := by
      rcases (mem t).1 ht with h | h
      · exact mem_gridOf_dvd p m t h
      · exact mem_gridOf_dvd p s t h
    exact ⟨hd, at_resample p hp m hm t hd, at_resample p hp s hs t hd⟩
  · intro x hx
    have hb := (binOf_eq_iff p x.1 _ hp).1 rfl
    refine ⟨_, List.mem_map.2 ⟨binOf p x.1, (mem _).2 ?_, rfl⟩, hb.2.1, hb.2.2⟩
    rcases hx with h | h
    · exact Or.inl (bin_mem_gridOf p hp m hm x h)
    · exact Or.inr (bin_mem_gridOf p hp s hs x h)

/-! ### C65: theorems -/

/-- The first and the last time of a chunk. -/
def firstTime (m : PSeries) : Int := (m.head?.map Prod.fst).getD 0
/-- See `firstTime`. -/
def lastTime (m : PSeries) : Int := (m.getLast?.map Prod.fst).getD 0

/-- When every chunk of the master has at least two readings (at increasing times) and the slave answers every request,
the aligned tables are, one for each chunk for which the slave has data, the tables of means over whole sample periods.
Missing: chunks with a single reading, see `C65_stops`. -/
theorem C65_aligned_partial (p : Int) (hp : 0 < p) (slave : Int → Int → Option PSeries) (ms : List PSeries)
    (hm : ∀ m ∈ ms, 2 ≤ m.length ∧ m.Pairwise (fun a b => a.1 < b.1))
    (hs : ∀ m ∈ ms, ∃ s, slave (firstTime m) (lastTime m) = some s ∧ SortedSeries s) :
    (alignTwo p slave ms).err = none ∧
    List.Forall₂ (fun m c => ∃ s, slave (firstTime m) (lastTime m) = some s ∧ Aligned p m s c)
      (ms.filter (fun m => decide (slave (firstTime m) (lastTime m) ≠ some []))) (alignTwo p slave ms).out := by
  induction ms with
  | nil => simp [alignTwo, Gen.done]
  | cons m ms ih =>
    have ih := ih (fun x hx => hm x (by simp [hx])) (fun x hx => hs x (by simp [hx]))
    obtain ⟨hlen, hsort⟩ := hm m (by simp)
    obtain ⟨s, hsl, hss⟩ := hs m (by simp)
    obtain ⟨f, m', rfl⟩ : ∃ f m', m = f :: m' := by
      cases m with
      | nil => simp at hlen
      | cons f m' => exact ⟨f, m', rfl⟩
    have hl : (f :: m').getLast? = some ((f :: m').getLast (by simp)) := List.getLast?_eq_getLast_of_ne_nil _
    have hft : firstTime (f :: m') = f.1 := rfl
    have hlt : lastTime (f :: m') = ((f :: m').getLast (by simp)).1 := by simp [lastTime, hl]
    have hfl : f.1 < ((f :: m').getLast (by simp)).1 := by
      cases m' with
      | nil => simp at hlen
      | cons g m'' =>
        apply (List.pairwise_cons.1 hsort).1
        rw [List.getLast_cons (by simp)]
        exact List.getLast_mem _
    have hsm : SortedSeries (f :: m') := hsort.imp (fun h => h.le)
    rw [alignTwo, if_neg (by omega), hl]
    simp only [List.head?_cons]
    rw [if_neg (by omega), ← hft, ← hlt, hsl]
    simp only
    by_cases he : s = []
    · subst he
      rw [if_pos rfl]
      simpa [List.filter_cons, hsl] using ih
    · rw [if_neg he]
      refine ⟨ih.1, ?_⟩
      rw [List.filter_cons, if_pos (by simp [hsl, he])]
      exact List.Forall₂.cons ⟨s, hsl, join_aligned p hp _ _ hsm hss⟩ ih.2

/-- A chunk of the master with fewer than two readings ends the alignment: all later chunks are ignored. -/
theorem C65_stops (p : Int) (slave : Int → Int → Option PSeries) (ms later : List PSeries) (m : PSeries)
    (h : m.length < 2) : alignTwo p slave (ms ++ m :: later) = alignTwo p slave ms := by
  induction ms with
  | nil => simp [alignTwo, h]
  | cons a ms ih =>
    rw [List.cons_append, alignTwo, alignTwo, ih]

/-- Consequence: the errors made after such a chunk do not count. Here the prediction is wrong for an hour, but the error
is 0. -/
theorem C65_later_errors_ignored_counterexample :
    ∃ (p : Int) (slave : Int → Int → Option PSeries) (ms : List PSeries), 0 < p ∧
      (∃ m ∈ ms, 2 ≤ m.length ∧ ∃ s, slave (firstTime m) (lastTime m) = some s ∧
        ∀ x ∈ m, ∀ y ∈ s, x.2 = some 500 ∧ y.2 = some 1) ∧
      mneForMeter (alignTwo p slave ms).out = .ok (.fin 0) := by
  refine ⟨10, fun a _ => if a = 0 then some [(0, some 1), (10, some 1)] else some [(100, some 1), (110, some 1)],
    [[(0, some 1), (10, some 1)], [(50, some 1)], [(100, some 500), (110, some 500)]], by decide, ?_, by decide +kernel⟩
  refine ⟨[(100, some 500), (110, some 500)], by simp, by simp, [(100, some 1), (110, some 1)], by
    simp [firstTime], by simp⟩

/-- A slave that yields nothing for a window makes the alignment raise. -/
theorem C65_silent_slave_raises (p : Int) (slave : Int → Int → Option PSeries) (m : PSeries) (ms : List PSeries)
    (hl : 2 ≤ m.length) (hlt : firstTime m < lastTime m) (hs : slave (firstTime m) (lastTime m) = none) :
    alignTwo p slave (m :: ms) = .raise .runtimeError := by
  cases m with
  | nil => simp at hl
  | cons f m' =>
    have hg : (f :: m').getLast? = some ((f :: m').getLast (by simp)) := List.getLast?_eq_getLast_of_ne_nil _
    have hft : firstTime (f :: m') = f.1 := rfl
    have hltm : lastTime (f :: m') = ((f :: m').getLast (by simp)).1 := by simp [lastTime, hg]
    rw [alignTwo, if_neg (by omega), hg]
    simp only [List.head?_cons]
    rw [← hft, ← hltm, if_neg (by omega), hs]

example : (alignTwo 10 (fun _ _ => some [(12, some 4), (25, some 6), (31, some 8)])
    [[(3, some 1), (7, some 2), (21, some 3)]]).out =
    [[(0, some (3 / 2), none), (10, none, some 4), (20, some 3, some 6), (30, none, some 8)]] := by decide +kernel

/-! ### C66 -/

/-- Fraction of the predicted "on" that is right. -/
def precision (tp fp : Nat) : Rat := tp / (tp + fp)
/-- Fraction of the true "on" that is found. -/
def recall (tp fn : Nat) : Rat := tp / (tp + fn)

/-- Rows predicted on and truly on. -/
def truePos (rows : List (Int × Int)) : Nat := rows.countP (fun r => r.1 == 1 && r.2 == 1)
/-- Rows predicted on and truly off. -/
def falsePos (rows : List (Int × Int)) : Nat := rows.countP (fun r => r.1 == 1 && r.2 != 1)
/-- Rows predicted off and truly on. -/
def falseNeg (rows : List (Int × Int)) : Nat := rows.countP (fun r => r.1 != 1 && r.2 == 1)

theorem f1_counts (rows : List (Int × Int)) : f1 rows =
    if 2 * truePos rows + (falsePos rows + falseNeg rows) = 0 then 0
    else ((2 * truePos rows : Nat) : Rat) / ((2 * truePos rows + (falsePos rows + falseNeg rows) : Nat) : Rat) := by
  have h1 : rows.countP (fun r => decide (r.1 = 1 ∧ r.2 = 1)) = truePos rows := by
    unfold truePos
    congr 1
    funext r
    rw [Bool.eq_iff_iff]
    simp
  have h2 : rows.countP (fun r => decide ((r.1 = 1 ∧ r.2 ≠ 1) ∨ (r.1 ≠ 1 ∧ r.2 = 1))) = falsePos rows + falseNeg rows := by
    unfold falsePos falseNeg
    clear h1
    induction rows with
    | nil => rfl
    | cons r rows ih =>
      simp only [List.countP_cons]
      rw [ih]
      by_cases ha : r.1 = 1 <;> by_cases hb : r.2 = 1 <;> simp [ha, hb] <;> omega
  unfold f1
  simp only [h1, h2]

/-- The score of a chunk is the harmonic mean of precision and recall when something was found, and 0 otherwise. -/
theorem C66_harmonic (rows : List (Int × Int)) :
    (truePos rows = 0 → f1 rows = 0) ∧
    (truePos rows ≠ 0 → f1 rows = 2 * precision (truePos rows) (falsePos rows) * recall (truePos rows) (falseNeg rows) /
      (precision (truePos rows) (falsePos rows) + recall (truePos rows) (falseNeg rows))) := by
  rw [f1_counts]
  generalize truePos rows = tp
  generalize falsePos rows = fp
  generalize falseNeg rows = fn
  refine ⟨?_, ?_⟩
  · rintro rfl
    split <;> simp
  · intro h
    rw [if_neg (by omega)]
    have htp : (0 : Rat) < tp := by exact_mod_cast Nat.pos_of_ne_zero h
    have h1 : (0 : Rat) ≤ fp := Nat.cast_nonneg _
    have h2 : (0 : Rat) ≤ fn := Nat.cast_nonneg _
    unfold precision recall
    push_cast
    have e1 : (tp : Rat) + fp ≠ 0 := by linarith
    have e2 : (tp : Rat) + fn ≠ 0 := by linarith
    have e3 : (2 * tp : Rat) + (fp + fn) ≠ 0 := by linarith
    have e4 : (tp : Rat) / (tp + fp) + tp / (tp + fn) ≠ 0 := by
      have : 0 < (tp : Rat) / (tp + fp) + tp / (tp + fn) := by positivity
      exact this.ne'
    rw [div_eq_div_iff e3 e4]
    field_simp
    ring

theorem f1_bounds (rows : List (Int × Int)) : 0 ≤ f1 rows ∧ f1 rows ≤ 1 := by
  rw [f1_counts]
  split
  · exact ⟨le_refl _, zero_le_one⟩
  · rename_i h
    constructor
    · positivity
    · rw [div_le_one (by exact_mod_cast Nat.pos_of_ne_zero h)]
      push_cast
      have h1 : (0 : Rat) ≤ falsePos rows := Nat.cast_nonneg _
      have h2 : (0 : Rat) ≤ falseNeg rows := Nat.cast_nonneg _
      linarith

/-- The score of a meter is NaN exactly when no row has both states, otherwise the mean of the scores of the chunks
weighted by their rows; it lies between 0 and 1, and for a single chunk it is the score of that chunk. -/
theorem C66_weighted_mean (cs : List AChunk) :
    (f1ForMeter cs = none ↔ ∀ c ∈ cs, intStates c = []) ∧
    (∀ v, f1ForMeter cs = some v → 0 ≤ v ∧ v ≤ 1 ∧
      v * ((cs.map (fun c => (intStates c).length)).sum : Nat) =
        (cs.map (fun c => f1 (intStates c) * ((intStates c).length : Nat))).sum) ∧
    (∀ c, cs = [c] → intStates c ≠ [] → f1ForMeter cs = some (f1 (intStates c))) := by
  have hnum : ((cs.map (fun c => (f1 (intStates c), (intStates c).length))).map Prod.snd).sum =
      (cs.map (fun c => (intStates c).length)).sum := by simp [Function.comp_def]
  have h2 : ∀ v, f1ForMeter cs = some v → 0 ≤ v ∧ v ≤ 1 ∧
      v * ((cs.map (fun c => (intStates c).length)).sum : Nat) =
        (cs.map (fun c => f1 (intStates c) * ((intStates c).length : Nat))).sum := by
    intro v hv
    unfold f1ForMeter at hv
    simp only [hnum] at hv
    split at hv
    · rename_i hpos
      simp only [Option.some.injEq, List.map_map, Function.comp_def] at hv
      have hpos' : (0 : Rat) < ((cs.map (fun c => (intStates c).length)).sum : Nat) := by exact_mod_cast hpos
      have key : v * ((cs.map (fun c => (intStates c).length)).sum : Nat) =
          (cs.map (fun c => f1 (intStates c) * ((intStates c).length : Nat))).sum := by
        rw [← hv]
        generalize (((cs.map (fun c => (intStates c).length)).sum : Nat) : Rat) = N at *
        clear hv hnum hpos
        induction cs with
        | nil => simp
        | cons c cs ih =>
          simp only [List.map_cons, List.sum_cons, add_mul, ih]
          congr 1
          field_simp
      have b0 : 0 ≤ (cs.map (fun c => f1 (intStates c) * ((intStates c).length : Nat))).sum := List.sum_nonneg (by
        intro x hx
        obtain ⟨c, -, rfl⟩ := List.mem_map.1 hx
        exact mul_nonneg (f1_bounds _).1 (Nat.cast_nonneg _))
      have b1 : (cs.map (fun c => f1 (intStates c) * ((intStates c).length : Nat))).sum ≤
          ((cs.map (fun c => (intStates c).length)).sum : Nat) := by
        clear hv hnum hpos hpos' key b0
        induction cs with
        | nil => simp
        | cons c cs ih =>
          simp only [List.map_cons, List.sum_cons, Nat.cast_add]
          have := (f1_bounds (intStates c)).2
          have hl : (0 : Rat) ≤ ((intStates c).length : Nat) := Nat.cast_nonneg _
          nlinarith
      refine ⟨?_, ?_, key⟩
      · by_contra hneg
        push Not at hneg
        nlinarith
      · by_contra hgt
        push Not at hgt
        nlinarith
    · cases hv
  refine ⟨?_, h2, ?_⟩
  · unfold f1ForMeter
    simp only [hnum]
    have : (cs.map (fun c => (intStates c).length)).sum = 0 ↔ ∀ c ∈ cs, intStates c = [] := by
      rw [List.sum_eq_zero_iff]
      simp
    rw [← this]
    split
    · rename_i h; simp only [reduceCtorEq, false_iff]; omega
    · rename_i h; simp only [true_iff]; omega
  · rintro c rfl hc
    have hpos : 0 < (intStates c).length := List.length_pos_iff.2 hc
    have : ((intStates c).length : Rat) ≠ 0 := by exact_mod_cast hpos.ne'
    simp [f1ForMeter, hpos, div_self this]

/-- The score depends on how the data are cut into chunks: the same perfect prediction scores 1 in one chunk, but 1/2 in
two, because a chunk in which the appliance is rightly off throughout scores 0. -/
theorem C66_chunking_counterexample :
    ∃ c d : AChunk, (∀ r ∈ c ++ d, r.2.1 = r.2.2) ∧ f1ForMeter [c ++ d] = some 1 ∧ f1ForMeter [c, d] = some (1 / 2) := by
  refine ⟨[(0, some 1, some 1)], [(1, some 0, some 0)], ?_, by decide +kernel, by decide +kernel⟩
  simp

/-- The states are means over a sample period, truncated: an appliance that was on for part of the period counts as off. -/
theorem C66_partly_on_counterexample :
    ∃ c : AChunk, c = [(0, some (2 / 3), some 1)] ∧ intStates c = [(0, 1)] ∧ f1ForMeter [c] = some 0 :=
  ⟨_, rfl, by decide +kernel, by decide +kernel⟩

/-- A chunk scores 1 exactly when something is on and every state is predicted right. -/
theorem C66_perfect (rows : List (Int × Int)) (h01 : ∀ r ∈ rows, (r.1 = 0 ∨ r.1 = 1) ∧ (r.2 = 0 ∨ r.2 = 1)) :
    f1 rows = 1 ↔ (∃ r ∈ rows, r.2 = 1) ∧ ∀ r ∈ rows, r.1 = r.2 := by
  have hz : falsePos rows = 0 ∧ falseNeg rows = 0 ↔ ∀ r ∈ rows, r.1 = r.2 := by
    unfold falsePos falseNeg
    rw [List.countP_eq_zero, List.countP_eq_zero]
    constructor
    · rintro ⟨a, b⟩ r hr
      have ha := a r hr
      have hb := b r hr
      rcases h01 r hr with ⟨h1 | h1, h2 | h2⟩ <;> simp_all
    · intro h
      constructor <;> (intro r hr; have := h r hr; simp [this])
  have ht : ∀ (_ : ∀ r ∈ rows, r.1 = r.2), truePos rows ≠ 0 ↔ ∃ r ∈ rows, r.2 = 1 := by
    intro h
    unfold truePos
    rw [← Nat.pos_iff_ne_zero, List.countP_pos_iff]
    constructor
    · rintro ⟨r, hr, hb⟩
      simp at hb
      exact ⟨r, hr, hb.2⟩
    · rintro ⟨r, hr, hb⟩
      exact ⟨r, hr, by simp [h r hr, hb]⟩
  rw [f1_counts]
  constructor
  · intro h
    split at h
    · simp at h
    · rename_i hne
      rw [div_eq_one_iff_eq (by exact_mod_cast hne)] at h
      have h' : 2 * truePos rows = 2 * truePos rows + (falsePos rows + falseNeg rows) := by exact_mod_cast h
      have hall := hz.1 ⟨by omega, by omega⟩
      exact ⟨(ht hall).1 (by omega), hall⟩
  · rintro ⟨hex, hall⟩
    obtain ⟨a, b⟩ := hz.2 hall
    have := (ht hall).2 hex
    rw [if_neg (by omega), a, b]
    have : ((2 * truePos rows : Nat) : Rat) ≠ 0 := by exact_mod_cast (by omega : 2 * truePos rows ≠ 0)
    rw [Nat.add_zero, div_self this]

/-- `n` is `q` truncated towards 0. -/
def IsTruncation (q : Rat) (n : Int) : Prop :=
  (0 ≤ q → (n : Rat) ≤ q ∧ q < n + 1) ∧ (q < 0 → q ≤ (n : Rat) ∧ (n : Rat) - 1 < q)

theorem isTruncation_truncInt (q : Rat) : IsTruncation q (truncInt q) := by
  have key : ∀ q : Rat, 0 ≤ q → ((truncInt q : Int) : Rat) ≤ q ∧ q < (truncInt q : Int) + 1 := by
    intro q h
    have hf : truncInt q = ⌊q⌋ := by
      unfold truncInt
      rw [Rat.floor_def']
      exact Int.tdiv_eq_ediv_of_nonneg (Rat.num_nonneg.2 h)
    rw [hf]
    exact ⟨Int.floor_le q, Int.lt_floor_add_one q⟩
  refine ⟨key q, fun h => ?_⟩
  have hn : truncInt (-q) = - truncInt q := by
    unfold truncInt
    simp [Int.neg_tdiv]
  have h1 := key (-q) (by linarith)
  rw [hn] at h1
  push_cast at h1
  exact ⟨by linarith [h1.1], by linarith [h1.2]⟩

/-- The states that are compared: those of the rows that have both, in order, the master's first, truncated. -/
theorem C66_states (c : AChunk) :
    List.Forall₂ (fun r s => ∃ a b, r.2 = (some a, some b) ∧ IsTruncation a s.1 ∧ IsTruncation b s.2)
      (c.filter complete) (intStates c) := by
  induction c with
  | nil => exact List.Forall₂.nil
  | cons r c ih =>
    obtain ⟨t, a, b⟩ := r
    unfold intStates at ih ⊢
    cases a with
    | none => simpa [List.filter_cons, complete] using ih
    | some a =>
      cases b with
      | none => simpa [List.filter_cons, complete] using ih
      | some b =>
        rw [List.filter_cons, if_pos (by simp [complete]), List.filterMap_cons]
        exact List.Forall₂.cons ⟨a, b, rfl, isTruncation_truncInt a, isTruncation_truncInt b⟩ ih

example : f1ForMeter [[(0, some 1, some 1), (1, some 1, some 0), (2, none, some 1)], [(3, some 0, some 1)]] =
    some (4 / 9) := by decide +kernel

end Nilmtk
